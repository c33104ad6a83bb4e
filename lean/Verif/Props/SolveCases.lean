import Verif.Props.Solve
import Verif.Props.Cspy
import Verif.Props.MasterCases

/-!
# C33-C35: examples and counterexamples
-/

namespace Vrpy

open Spec

namespace Solve

/-- Customers 1 and 2 are far away and near to each other; customers 3, 4, 5 are near the depot. -/
def exFar : Net where
  nodes := [.source, .sink, .cust 1, .cust 2, .cust 3, .cust 4, .cust 5]
  succ := fun u => match u with
    | .source => [.cust 1, .cust 2, .cust 3, .cust 4, .cust 5]
    | .sink => []
    | .cust 1 => [.cust 2, .sink]
    | .cust 2 => [.sink]
    | .cust 3 => [.cust 4, .cust 5, .sink]
    | .cust 4 => [.cust 3, .cust 5, .sink]
    | .cust 5 => [.cust 3, .cust 4, .sink]
    | _ => []
  cost := fun u v => match u, v with
    | .source, .cust 1 => [7]
    | .source, .cust 2 => [7]
    | .source, _ => [0]
    | _, _ => [1]

theorem exFar_wf : WellFormed exFar := by
  refine ⟨by decide, ?_, ?_, by decide, by decide, ?_, rfl⟩
  · intro u; simp only [exFar]; split <;> decide
  · intro u v; simp only [exFar]; split <;> simp <;> tauto
  · intro u; simp only [exFar]; split <;> decide

/-- The round trips, as converted from initial routes. -/
def exRoundTrips : List Column :=
  [1, 2, 3, 4, 5].map (fun i =>
    { name := .num i, nodes := [.source, .cust i, .sink], edges := [(.source, .cust i), (.cust i, .sink)],
      cost := if i ≤ 2 then 8 else 1, vehicleType := 0 })

theorem eq_ok_of_toOption {α : Type} {x : Py α} {a : α} (h : x.toOption = some a) : x = .ok a := by
  cases x with
  | error e => cases h
  | ok b => exact congrArg _ (Option.some.inj h)

example : convertRoutes exFar [] ([1, 2, 3, 4, 5].map (fun i => [.source, .cust i, .sink])) = .ok exRoundTrips :=
  eq_ok_of_toOption (by decide +kernel)

/-- The route that saves 7. -/
def exSaving : List Node := [.source, .cust 1, .cust 2, .sink]

theorem exSaving_route : IsSimpleRoute exFar exSaving :=
  isSimpleRoute_routeOf (L := [.cust 1, .cust 2]) (by decide) (by decide) (by simp [Along, routeOf, exFar])

def exCfg (m : PricingMode) : SolveCfg := { M := { G := exFar }, keys := [.cust 1, .cust 2, .cust 3, .cust 4, .cust 5], pricing := m }

/-- The optimal solution of the master problem over the round trips, and with the column of `exSaving` if it is there. -/
def exMaster (prob : LP MVar) : Master.Answer :=
  if prob.vars.any (fun d => d.var = .y (.elem 6)) then
    { optimal := true, point := fun x => if x ∈ [MVar.y (.elem 6), .y (.num 3), .y (.num 4), .y (.num 5)] then 1 else 0,
      visitDual := fun v => if v = .cust 1 then 8 else 1, fleetDual := fun _ => 0, spanDual := fun _ => 0 }
  else
    { optimal := true, point := fun x => match x with | .y (.num _) => 1 | _ => 0,
      visitDual := fun v => if v = .cust 1 ∨ v = .cust 2 then 8 else 1, fleetDual := fun _ => 0, spanDual := fun _ => 0 }

/-- Paths near the depot. -/
def exPaths : List (List Node) :=
  ([[3], [4], [5], [3, 4], [4, 3], [3, 5], [5, 3], [4, 5], [5, 4]] : List (List Nat)).map (fun l => routeOf (l.map Node.cust))

/-- The labelling algorithm finds the saving route if it can. -/
def exLabel (q : Cspy) : Cspy.Oracle :=
  if Node.cust 1 ∈ q.G.succ .source ∧ Node.cust 2 ∈ q.G.succ (.cust 1) ∧ Node.sink ∈ q.G.succ (.cust 2) then exOracle q exSaving
  else fun _ _ => none

theorem exLabel_sound (q : Cspy) : CspySound q (exLabel q) := by
  unfold exLabel
  split
  · rename_i h
    intro m e c path hp
    unfold exOracle at hp
    split at hp
    · rename_i hc
      simp only [Option.some.injEq, Prod.mk.injEq] at hp
      obtain ⟨rfl, rfl⟩ := hp
      refine ⟨rfl, rfl, ⟨h.1, h.2.1, h.2.2, trivial⟩, rfl, fun _ => by decide, ?_⟩
      simp only [WithinLimits, hc.1, Bool.false_eq_true, if_false]
      exact hc.2
    · cases hp
  · intro m e c path hp
    cases hp

def exEnv : Env where
  master := fun _ => exMaster
  pricing := fun _ _ => { objective := none, infeasible := true, point := fun _ => 0 }
  cspy := fun _ => exLabel
  paths := fun _ _ _ beta => exPaths.take beta
  rand := fun _ _ _ => 0
  negCycle := fun _ _ => true
  timeUp := fun _ => false
  clock := fun _ => { runtime := 0, root := fun _ _ => 1 }
  pick := fun _ => 0
  solvable := fun _ _ => true

def exStart : SolveState := { cols := exRoundTrips, mcols := exRoundTrips, hyper := some {} }

/-- What there is to see of a run. -/
def outcome : Py (Option SolveState) → Option (Bool × Nat × Nat × List Column × List ℚ)
  | .ok (some st) => some (st.more, st.iteration, st.noImprovement, st.cols, st.bounds)
  | _ => none

/-- The column of the saving route. -/
def exColumn : Column :=
  { name := .elem 6, path := some exSaving, nodes := exSaving, edges := consecutive exSaving, cost := 9, vehicleType := 0 }

/-- With exact pricing the route is found in the first iteration and none in the second. -/
example : outcome (columnGeneration (exCfg (.fixed .exact)) exEnv false 5 exStart) =
    some (false, 2, 0, exRoundTrips ++ [exColumn], [19, 12]) := by decide +kernel

theorem legSum_nonneg {w : Node → Node → ℚ} (hw : ∀ u v, 0 ≤ w u v) : ∀ p, 0 ≤ legSum w p
  | [] => le_refl _
  | [_] => le_refl _
  | a :: b :: rest => add_nonneg (hw a b) (legSum_nonneg hw (b :: rest))

/-- The dual values in the first iteration. -/
def exDuals : Duals := (exCfg .hyper).M.duals exRoundTrips (exMaster ((exCfg .hyper).M.lp exRoundTrips true))

/-- The weights made of them. -/
def exWeights : Node → Node → ℚ := fun u v => match edgeWeight exFar exDuals 0 none u v with | .ok w => w | .error _ => 0

theorem exWeights_ok : reducedCosts exFar exDuals 0 none = .ok exWeights := by
  unfold reducedCosts
  have : (exFar.edges.mapM (fun e => edgeWeight exFar exDuals 0 none e.1 e.2)).toOption ≠ none := by decide +kernel
  cases h : exFar.edges.mapM (fun e => edgeWeight exFar exDuals 0 none e.1 e.2) with
  | error e => simp [h, Except.toOption] at this
  | ok l => rfl

theorem exPaths_best {pw : Node → Node → ℚ} (hpw : Normalised exFar exWeights pw) {beta : Nat} (hb : beta ≤ 9) :
    BestSimplePaths exFar pw beta (exPaths.take beta) := by
  obtain ⟨hi, lo, ⟨e1, he1, h1⟩, ⟨e2, he2, h2⟩, hall, _, hw⟩ := hpw
  have hhi : hi = 7 := by
    have ha := (hall (.source, .cust 1) (by decide)).2
    have hb : ∀ e ∈ exFar.edges, exWeights e.1 e.2 ≤ 7 := by decide +kernel
    have hc := hb e1 he1
    rw [h1] at hc
    have : exWeights .source (.cust 1) = 7 := by decide +kernel
    simp only [this] at ha
    linarith
  have hlo : lo = -7 := by
    have ha := (hall (.cust 1, .cust 2) (by decide)).1
    have hb : ∀ e ∈ exFar.edges, -7 ≤ exWeights e.1 e.2 := by decide +kernel
    have hc := hb e2 he2
    rw [h2] at hc
    have : exWeights (.cust 1) (.cust 2) = -7 := by decide +kernel
    simp only [this] at ha
    linarith
  subst hhi hlo
  have hnn : ∀ u v, 0 ≤ pw u v := fun u v => by rw [hw]; exact le_max_left _ _
  have hzero : ∀ p ∈ exPaths, legSum pw p = 0 := by
    have : pw = fun u v => max 0 ((exWeights u v - -7) / (7 - -7) * 2 - 1) := funext fun u => funext fun v => hw u v
    subst this
    decide +kernel
  have htake : ∀ p ∈ exPaths.take beta, p ∈ exPaths := fun p hp => List.mem_of_mem_take hp
  refine ⟨?_, ?_, ?_, ?_, ?_⟩
  · intro p hp
    have : ∀ p ∈ exPaths, (p.head? = some .source ∧ p.getLast? = some .sink) ∧ p.Nodup ∧ ∀ e ∈ consecutive p, e ∈ exFar.edges := by
      decide +kernel
    obtain ⟨⟨a, b⟩, c, d⟩ := this p (htake p hp)
    exact ⟨⟨a, b, (along_iff _ _).2 (fun a b h => d (a, b) h)⟩, c⟩
  · exact List.Nodup.sublist (List.take_sublist _ _) (by decide)
  · refine List.pairwise_of_forall_mem_list ?_
    intro p hp q hq
    rw [hzero p (htake p hp), hzero q (htake q hq)]
  · exact List.length_take_le _ _
  · intro q _ _ _
    refine ⟨by simp [exPaths, hb], fun p hp => ?_⟩
    rw [hzero p (htake p hp)]
    exact legSum_nonneg hnn q

/-- **C34**, counterexample for the hyper-heuristic: the first heuristic it uses is BestPaths, the nine cheapest paths may
all lie near the depot, and if these yield no column the search stops after one iteration although exact pricing would
find a route of reduced cost -7.  All answers from outside are as they should be. -/
theorem C34_hyper_counterexample :
    ∃ st' cost st1, columnGeneration (exCfg .hyper) exEnv false 5 exStart = .ok (some st') ∧
      st'.iteration = 1 ∧ st'.cols = exRoundTrips ∧ limitReached (exCfg .hyper) st' = false ∧ exEnv.timeUp st'.tick = false ∧
      solveMaster (exCfg .hyper) exEnv false exStart = .ok (exDuals, cost, st1) ∧
      price (exCfg .hyper) exEnv 0 exDuals 0 none exRoundTrips .exact = .ok (exRoundTrips ++ [exColumn], true) ∧
      Encodes exFar exColumn exSaving ∧
      (∀ t q, CspySound q (exEnv.cspy t q)) ∧
      reducedCosts exFar exDuals 0 none = .ok exWeights ∧ legSum exWeights exSaving = -7 ∧
      (∀ t pw beta, Normalised exFar exWeights pw → beta ≤ 9 → BestSimplePaths exFar pw beta (exEnv.paths t exFar pw beta)) ∧
      ((exCfg .hyper).M.lp exRoundTrips true).Feasible (exMaster ((exCfg .hyper).M.lp exRoundTrips true)).point ∧
      DualsOk (exCfg .hyper).M exRoundTrips (exMaster ((exCfg .hyper).M.lp exRoundTrips true)) := by
  have key : outcome (columnGeneration (exCfg .hyper) exEnv false 5 exStart) = some (false, 1, 0, exRoundTrips, [19]) := by
    decide +kernel
  cases h : columnGeneration (exCfg .hyper) exEnv false 5 exStart with
  | error e => simp [h, outcome] at key
  | ok r =>
    cases r with
    | none => simp [h, outcome] at key
    | some st' =>
      simp only [h, outcome, Option.some.injEq, Prod.mk.injEq] at key
      obtain ⟨_, h2, h3, h4, _⟩ := key
      refine ⟨st', _, _, rfl, h2, h4, by simp [limitReached, h3, exCfg], rfl, rfl, eq_ok_of_toOption (by decide +kernel),
        ⟨by decide, by decide, by decide +kernel⟩, fun _ q => exLabel_sound q, exWeights_ok, by decide +kernel,
        fun _ pw beta hpw hb => exPaths_best hpw hb, ?_, ⟨?_, ?_, ?_⟩⟩
      · exact feasible_of _ _ (by decide +kernel)
      · intro _ k hk
        exact absurd hk (by simp [exCfg])
      · intro v hv
        exact absurd hv (by simp [exCfg, Master.drops])
      · decide +kernel

/-! ### A case for `C34_lower_bound_partial` -/

/-- Two customers; only arcs that leave a customer cost something. -/
def exFlat : Net where
  nodes := [.source, .sink, .cust 1, .cust 2]
  succ := fun u => match u with
    | .source => [.cust 1, .cust 2]
    | .cust 1 => [.cust 2, .sink]
    | .cust 2 => [.cust 1, .sink]
    | _ => []
  cost := fun u _ => if u = .source then [0] else [1]

theorem exFlat_wf : WellFormed exFlat := by
  refine ⟨by decide, ?_, ?_, by decide, by decide, ?_, rfl⟩
  · intro u; simp only [exFlat]; split <;> decide
  · intro u v; simp only [exFlat]; split <;> simp <;> tauto
  · intro u; simp only [exFlat]; split <;> decide

def exFlatPool : List Column :=
  [1, 2].map (fun i => { name := .num i, nodes := [.source, .cust i, .sink], edges := [(.source, .cust i), (.cust i, .sink)],
                         cost := 1, vehicleType := 0 })

def exFlatCfg : SolveCfg :=
  { M := { G := exFlat }, keys := [.cust 1, .cust 2], pricing := .fixed .exact, cspy := false }

def exFlatMaster (prob : LP MVar) : Master.Answer :=
  { optimal := decide (prob.vars.map VarDecl.var = [.y (.num 1), .y (.num 2)] ∧ prob.obj.map Prod.snd = [.y (.num 1), .y (.num 2)] ∧
      prob.obj.map Prod.fst = [1, 1]),
    point := fun _ => 1, visitDual := fun _ => 1, fleetDual := fun _ => 0, spanDual := fun _ => 0 }

noncomputable def exFlatEnv : Env :=
  { exEnv with master := fun _ => exFlatMaster, pricing := fun _ => exactSolver_exists.choose }

def exFlatStart : SolveState := { cols := exFlatPool, mcols := exFlatPool }

def exFlatDuals : Duals := exFlatCfg.M.duals exFlatPool (exFlatMaster (exFlatCfg.M.lp exFlatPool true))

theorem exFlat_weights : ∃ w, reducedCosts exFlat exFlatDuals 0 none = .ok w ∧ ∀ e ∈ exFlat.edges, w e.1 e.2 = 0 := by
  unfold reducedCosts
  have : (exFlat.edges.mapM (fun e => edgeWeight exFlat exFlatDuals 0 none e.1 e.2)).toOption ≠ none := by decide +kernel
  cases h : exFlat.edges.mapM (fun e => edgeWeight exFlat exFlatDuals 0 none e.1 e.2) with
  | error e => simp [h, Except.toOption] at this
  | ok l => exact ⟨_, rfl, by decide +kernel⟩

/-- An exact solver finds no column if all weights are 0. -/
theorem exFlat_price : price exFlatCfg exFlatEnv 1 exFlatDuals 0 none exFlatPool .exact = .ok (exFlatPool, false) := by
  obtain ⟨w, hw, hzero⟩ := exFlat_weights
  unfold price subProblem
  rw [show exFlatCfg.M.G = exFlat from rfl, hw]
  simp only [show exFlatCfg.cspy = false from rfl, Bool.false_eq_true, if_false]
  generalize hq : ({ G := exFlat, weight := w, vehicleType := 0, caps := exFlatCfg.caps, numStops := exFlatCfg.numStops, duration := exFlatCfg.duration, timeWindows := exFlatCfg.timeWindows, pickupDelivery := exFlatCfg.pickupDelivery, distributionCollection := exFlatCfg.distributionCollection, negCycle := exFlatEnv.negCycle exFlat w } : PricingLP) = q
  have hobj : ∀ prob, q.formulate = .ok prob → ∀ x, prob.obj.eval x = 0 := by
    intro prob hform x
    obtain ⟨cap, rfl, _⟩ := PricingLP.formulate_inv hform
    simp only [PricingLP.lp, PricingLP.objective]
    rw [eval_map (x := x) q.G.edges (fun e => q.weight e.1 e.2) (fun e => PVar.x e.1 e.2)]
    refine List.sum_eq_zero ?_
    intro y hy
    obtain ⟨e, he, rfl⟩ := List.mem_map.1 hy
    have : q.weight e.1 e.2 = 0 := by
      rw [← hq] at he ⊢
      exact hzero e he
    rw [this, zero_mul]
  cases hform : q.formulate with
  | error e =>
    exfalso
    rw [← hq] at hform
    revert hform
    simp [PricingLP.formulate, exFlatCfg]
  | ok prob =>
    have hqG : q.G = exFlat := by rw [← hq]
    have hadm : Admissible q [.source, .cust 1, .sink] := by
      rw [← hq]
      have hr : IsSimpleRoute exFlat [.source, .cust 1, .sink] :=
        isSimpleRoute_routeOf (L := [.cust 1]) (by decide) (by decide) (by simp [Along, routeOf, exFlat])
      exact ⟨hr, by decide,
        fun m hm => (by cases hm), fun h => absurd rfl h, fun d hd => (by cases hd), fun h => (by cases h)⟩
    obtain ⟨x, hx, _⟩ := C18_routes_feasible_partial (by rw [hqG]; exact exFlat_wf) (by rw [hqG]; rfl) (by rw [hqG]; rfl)
      (by rw [← hq]; intro h; cases h) (by rw [← hq]; exact .plain rfl rfl) hform hadm
    obtain ⟨y, hy⟩ := optimal_exists hform hx
    obtain ⟨h1, _, h3⟩ := exactSolver_exists.choose_spec prob y hy
    rw [hobj prob hform] at h3
    simp only [PricingLP.solve, hform, Bool.not_true, Bool.or_self, Bool.false_eq_true, if_false]
    rw [show exFlatEnv.pricing 1 prob = exactSolver_exists.choose prob from rfl, h3]
    simp only
    rw [if_neg (by norm_num)]

theorem exFlat_run : ∃ st', columnGeneration exFlatCfg exFlatEnv false 5 exFlatStart = .ok (some st') ∧
    limitReached exFlatCfg st' = false ∧ st'.bounds = [2] := by
  have hobj : (exFlatCfg.M.objective exFlatPool).eval (fun _ => 1) = 2 := by decide +kernel
  have hm : solveMaster exFlatCfg exFlatEnv false exFlatStart = .ok (exFlatDuals, 2,
      { exFlatStart with point := fun _ => 1, solved := exFlatPool.map Column.name, tick := 1 }) := by
    have hopt : (exFlatEnv.master exFlatStart.tick (exFlatCfg.M.lp exFlatStart.mcols true)).optimal = true := by
      show (exFlatMaster (exFlatCfg.M.lp exFlatPool true)).optimal = true
      decide +kernel
    simp only [solveMaster, solveRelaxed, Bool.false_eq_true, if_false, hopt, if_true, ← hobj]
    rfl
  have hg : ∀ st, greedyPhase exFlatCfg exFlatEnv exFlatDuals 0 st = .ok st := fun _ => rfl
  have hpa : priceAll exFlatCfg exFlatEnv exFlatDuals 0 [(none, .exact)] 1 exFlatPool = .ok (exFlatPool, false, 2) := by
    simp only [priceAll, exFlat_price]
  have hv : vehicleLoop exFlatCfg exFlatEnv exFlatDuals .exact [0]
      { exFlatStart with point := fun _ => 1, solved := exFlatPool.map Column.name, tick := 1 } = .ok
      { exFlatStart with point := fun _ => 1, solved := exFlatPool.map Column.name, tick := 2, more := false } := by
    unfold vehicleLoop
    rw [hg]
    simp only
    rw [show priceAll exFlatCfg exFlatEnv exFlatDuals 0 (jobs exFlatCfg .exact exFlatStart.cols) 1 exFlatStart.cols = _ from hpa]
    rfl
  have hf : findColumns exFlatCfg exFlatEnv false exFlatStart = .ok
      { exFlatStart with point := fun _ => 1, solved := exFlatPool.map Column.name, tick := 2, more := false, iteration := 1,
                         bounds := [2], noImprovement := 0 } := by
    unfold findColumns
    rw [hm]
    have hn : ∀ st, nextStrategy exFlatCfg exFlatEnv st 2 = .ok (.exact, st) := by
      intro st
      exact congrArg (fun h => Except.ok (h, st)) (ite_self _)
    simp only [bind, Except.bind, hn]
    rw [show List.range exFlatCfg.K = [0] from rfl, hv]
    rfl
  refine ⟨{ exFlatStart with point := fun _ => 1, solved := exFlatPool.map Column.name, tick := 2, more := false,
                             iteration := 1, bounds := [2], noImprovement := 0 }, ?_, rfl, rfl⟩
  simp only [columnGeneration, show exFlatStart.more = true from rfl, if_true, hf]
  rfl

/-- The theorem applies: the bound is 2, and e.g. the route through both customers costs 2. -/
example : ∃ bound, (∃ st', columnGeneration exFlatCfg exFlatEnv false 5 exFlatStart = .ok (some st') ∧
      st'.bounds.getLast? = some bound) ∧ bound ≤ planCost exFlat [(0, [.source, .cust 1, .cust 2, .sink])] + 1 / 1000 := by
  obtain ⟨st', h, hlim, hb⟩ := exFlat_run
  obtain ⟨bound, h1, h2⟩ := C34_lower_bound_partial (cfg := exFlatCfg) (env := exFlatEnv) (st := exFlatStart) (m := .exact)
    (C33_initial (G := exFlat) (caps := []) (rs := [[.source, .cust 1, .sink], [.source, .cust 2, .sink]])
      (eq_ok_of_toOption (by decide +kernel))) rfl rfl rfl exFlat_wf rfl rfl rfl (fun h => by cases h) rfl rfl
    (fun _ => exactSolver_exists.choose_spec) (by
      intro _ stm _ hopt
      generalize stm.mcols = cols at hopt ⊢
      refine ⟨fun _ k hk => absurd hk (by simp [exFlatCfg]), fun v hv => absurd hv (by simp [exFlatCfg, Master.drops]), ?_⟩
      simp only [exFlatEnv, exFlatMaster, decide_eq_true_eq] at hopt ⊢
      obtain ⟨_, ha, hb⟩ := hopt
      simp only [Master.lp] at ha hb
      generalize exFlatCfg.M.objective cols = o at ha hb
      match o, ha, hb with
      | [(a, x), (b, y)], ha, hb =>
        simp only [List.map_cons, List.map_nil, List.cons.injEq, and_true] at hb
        obtain ⟨rfl, rfl⟩ := hb
        have : ((exFlatCfg.M.G.customers.map (fun _ => (1 : ℚ))).sum) = 2 := by decide +kernel
        simp only [this]
        simp [LinExpr.eval, exFlatCfg]
        norm_num) h hlim rfl
  refine ⟨bound, ⟨st', h, h1⟩, ?_⟩
  have := h2 [(0, [.source, .cust 1, .cust 2, .sink])] [] ⟨by
      intro e he
      simp only [List.mem_singleton] at he
      subst he
      exact (isSimpleRoute_routeOf (L := [.cust 1, .cust 2]) (by decide) (by decide) (by simp [Along, routeOf, exFlatCfg, exFlat])).1,
    by unfold VisitsEachOnce; decide +kernel, by simp, by simp [exFlatCfg], by simp [exFlatCfg]⟩ (by simp) (by simp [exFlatCfg]) (by
      intro e he
      simp only [List.mem_singleton] at he
      subst he
      exact ⟨⟨isSimpleRoute_routeOf (L := [.cust 1, .cust 2]) (by decide) (by decide) (by simp [Along, routeOf, limitsOf, exFlatCfg, exFlat]),
        by decide, fun m hm => (by cases hm), fun h => absurd rfl h, fun d hd => (by cases hd), fun h => (by cases h)⟩, .plain rfl rfl⟩)
  simp only [List.length_singleton, Nat.cast_one, mul_one] at this
  have hz : (exFlatCfg.M.dropPenalty : ℚ) = 0 := rfl
  rw [hz, zero_mul, add_zero] at this
  exact this

end Solve

end Vrpy
