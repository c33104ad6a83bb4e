import Verif.Proofs.Solve
import Verif.Props.Master
import Verif.Props.GreedyPricing
import Verif.Props.InitialRoutes
import Mathlib.Tactic.Ring

/-!
# C33-C35: the loop of column generation

`Trace n st st'`: `n` iterations of `_column_generation` lead from `st` to `st'`.
-/

namespace Vrpy

open Spec

namespace Solve

/-- The loop goes on after an iteration that ended in `st`. -/
def GoesOn (cfg : SolveCfg) (env : Env) (st : SolveState) : Prop :=
  env.timeUp st.tick = false ∧ limitReached cfg st = false

/-- `n` iterations of the loop lead from one state to the other. -/
inductive Trace (cfg : SolveCfg) (env : Env) (dive : Bool) (st : SolveState) : Nat → SolveState → Prop
  | zero : Trace cfg env dive st 0 st
  | snoc {n : Nat} {st1 st2 : SolveState} : Trace cfg env dive st n st1 → st1.more = true →
      (n = 0 ∨ GoesOn cfg env st1) → findColumns cfg env dive st1 = .ok st2 → Trace cfg env dive st (n + 1) st2

variable {cfg : SolveCfg} {env : Env} {dive : Bool}

theorem Trace.cons {st st1 st2 : SolveState} {n : Nat} (hm : st.more = true) (h : findColumns cfg env dive st = .ok st1)
    (ht : Trace cfg env dive st1 n st2) (hg : n = 0 ∨ GoesOn cfg env st1) : Trace cfg env dive st (n + 1) st2 := by
  induction ht with
  | zero => exact .snoc .zero hm (Or.inl rfl) h
  | @snoc n a b h1 h2 h3 h4 ih =>
    have hg : GoesOn cfg env st1 := by
      rcases hg with h | h
      · omega
      · exact h
    refine .snoc (ih (Or.inr hg)) h2 (Or.inr ?_) h4
    rcases h3 with h3 | h3
    · subst h3
      cases h1
      assumption
    · exact h3

/-- How the loop ends. -/
theorem columnGeneration_trace {fuel : Nat} {st st' : SolveState}
    (h : columnGeneration cfg env dive fuel st = .ok (some st')) :
    ∃ n ≤ fuel, Trace cfg env dive st n st' ∧
      (st'.more = false ∨ 0 < n ∧ (env.timeUp st'.tick = true ∨ limitReached cfg st' = true)) := by
  induction fuel generalizing st with
  | zero =>
    cases hm : st.more with
    | true => simp [columnGeneration, hm] at h
    | false =>
      simp only [columnGeneration, hm, Bool.false_eq_true, if_false, Except.ok.injEq, Option.some.injEq] at h
      subst h
      exact ⟨0, le_refl _, .zero, Or.inl hm⟩
  | succ fuel ih =>
    cases hm : st.more with
    | false =>
      simp only [columnGeneration, hm, Bool.false_eq_true, if_false, Except.ok.injEq, Option.some.injEq] at h
      subst h
      exact ⟨0, Nat.zero_le _, .zero, Or.inl hm⟩
    | true =>
      simp only [columnGeneration, hm, if_true] at h
      cases hf : findColumns cfg env dive st with
      | error e => simp [hf] at h
      | ok st1 =>
        simp only [hf] at h
        by_cases hstop : (env.timeUp st1.tick || limitReached cfg st1) = true
        · simp only [hstop, if_true, Except.ok.injEq, Option.some.injEq] at h
          subst h
          exact ⟨1, by omega, .snoc .zero hm (Or.inl rfl) hf, Or.inr ⟨by omega, by simpa using hstop⟩⟩
        · rw [if_neg hstop] at h
          obtain ⟨n, hn, ht, hend⟩ := ih h
          refine ⟨n + 1, by omega, Trace.cons hm hf ht (Or.inr ?_), ?_⟩
          · simpa [GoesOn] using hstop
          · rcases hend with h | ⟨_, h⟩
            · exact Or.inl h
            · exact Or.inr ⟨by omega, h⟩

/-- Every trace is the beginning of a run of the loop with enough fuel. -/
theorem Trace.run {st st' : SolveState} {n : Nat} (ht : Trace cfg env dive st n st') (fuel : Nat)
    (hg : n = 0 ∨ GoesOn cfg env st') :
    columnGeneration cfg env dive (n + fuel) st = columnGeneration cfg env dive fuel st' := by
  induction ht generalizing fuel with
  | zero => simp
  | @snoc n a b h1 h2 h3 h4 ih =>
    have hg : GoesOn cfg env b := by
      rcases hg with h | h
      · omega
      · exact h
    rw [show n + 1 + fuel = n + (fuel + 1) from by omega, ih (fuel + 1) h3]
    simp only [columnGeneration, h2, if_true, h4, hg.1, hg.2, Bool.or_self, Bool.false_eq_true, if_false]

/-- If a trace reaches a state in which the loop stops, the loop returns that state. -/
theorem Trace.stop {st st' : SolveState} {n : Nat} (ht : Trace cfg env dive st n st') (hn : n ≠ 0)
    (hg : env.timeUp st'.tick = true ∨ limitReached cfg st' = true) {fuel : Nat} (hfuel : n ≤ fuel) :
    columnGeneration cfg env dive fuel st = .ok (some st') := by
  cases ht with
  | zero => exact absurd rfl hn
  | @snoc n a _ h1 h2 h3 h4 =>
    obtain ⟨f, rfl⟩ : ∃ f, fuel = n + (f + 1) := ⟨fuel - (n + 1), by omega⟩
    rw [h1.run (f + 1) h3]
    simp only [columnGeneration, h2, if_true, h4]
    rw [if_pos (by simpa using hg)]

/-- If the fuel does not suffice, that many iterations can be made. -/
theorem columnGeneration_none {fuel : Nat} {st : SolveState} (h : columnGeneration cfg env dive fuel st = .ok none) :
    ∃ st', Trace cfg env dive st fuel st' ∧ st'.more = true ∧ (fuel = 0 ∨ GoesOn cfg env st') := by
  induction fuel generalizing st with
  | zero =>
    cases hm : st.more with
    | true => exact ⟨st, .zero, hm, Or.inl rfl⟩
    | false => simp [columnGeneration, hm] at h
  | succ fuel ih =>
    cases hm : st.more with
    | false => simp [columnGeneration, hm] at h
    | true =>
      simp only [columnGeneration, hm, if_true] at h
      cases hf : findColumns cfg env dive st with
      | error e => simp [hf] at h
      | ok st1 =>
        simp only [hf] at h
        by_cases hstop : (env.timeUp st1.tick || limitReached cfg st1) = true
        · simp [hstop] at h
        · rw [if_neg hstop] at h
          have hgo : GoesOn cfg env st1 := by simpa [GoesOn] using hstop
          obtain ⟨st', h1, h2, h3⟩ := ih h
          refine ⟨st', Trace.cons hm hf h1 (Or.inr hgo), h2, ?_⟩
          rcases h3 with h3 | h3
          · subst h3
            cases h1
            exact Or.inr hgo
          · exact Or.inr h3

/-! ## C33 -/

theorem PriceOk.true {d : Duals} : PriceOk cfg env d (fun _ => True) :=
  ⟨fun _ _ _ _ _ _ _ _ _ _ _ => Or.inr trivial, fun _ _ _ _ _ _ _ => Or.inr trivial⟩

/-- One iteration. -/
theorem findColumns_step {Q : Column → Prop} {st st' : SolveState} (hinv : Inv st)
    (hQ : ∀ d cost st1, solveMaster cfg env dive st = .ok (d, cost, st1) → PriceOk cfg env d Q)
    (h : findColumns cfg env dive st = .ok st') :
    Inv st' ∧ ∃ new, st'.cols = st.cols ++ new ∧ ∀ c ∈ new, Q c ∨ c ∈ st.cols := by
  obtain ⟨d, cost, st1, hh, st2, st3, h1, h2, h3, h4⟩ := findColumns_inv h
  obtain ⟨m1, m2, _⟩ := solveMaster_step h1
  obtain ⟨n1, n2, _⟩ := nextStrategy_step h2
  obtain ⟨c1, c2, _⟩ := count_step h4
  have hinv2 : Inv st2 := by
    unfold Inv
    rw [n1, n2, m1, m2]
    exact hinv
  obtain ⟨v1, ⟨new, v2, v3⟩, _⟩ := vehicleLoop_step (hQ d cost st1 h1) (Or.inl (nextStrategy_exact h2)) (fun k hk => List.mem_range.1 hk) hinv2 h3
  rw [n1, m1] at v2 v3
  refine ⟨?_, new, by rw [c1, v2], v3⟩
  unfold Inv
  rw [c1, c2]
  exact v1

/-- The columns found satisfy `Q`, if pricing with the dual values met on the way only yields such columns. -/
theorem Trace.pool {Q : Column → Prop} {st st' : SolveState} {n : Nat} (hinv : Inv st)
    (hQ : ∀ m stm d cost st1, Trace cfg env dive st m stm → m < n → solveMaster cfg env dive stm = .ok (d, cost, st1) →
      PriceOk cfg env d Q)
    (ht : Trace cfg env dive st n st') :
    Inv st' ∧ st.cols <+: st'.cols ∧ ∀ c ∈ st'.cols, c ∈ st.cols ∨ Q c := by
  induction ht with
  | zero => exact ⟨hinv, List.prefix_refl _, fun c hc => Or.inl hc⟩
  | @snoc n a b h1 h2 h3 h4 ih =>
    obtain ⟨i1, i2, i3⟩ := ih (fun m stm d cost st1 ht hm => hQ m stm d cost st1 ht (by omega))
    obtain ⟨j1, new, j2, j3⟩ := findColumns_step i1 (fun d cost st1 hs => hQ n a d cost st1 h1 (by omega) hs) h4
    refine ⟨j1, j2 ▸ i2.trans (List.prefix_append _ _), ?_⟩
    intro c hc
    rw [j2, List.mem_append] at hc
    rcases hc with hc | hc
    · exact i3 c hc
    · rcases j3 c hc with h | h
      · exact Or.inr h
      · exact i3 c h

/-- **C33.** However many iterations are made and whatever pricing, the solvers and the clock answer: if the columns are
numbered 1, 2, … and the master problem has exactly them at the start, then at every point of column generation the
names are pairwise different, the columns of the pool and of the master problem are the same, and no column has been
lost. -/
theorem C33_bookkeeping {st st' : SolveState} {n : Nat} (hnum : Numbered st.cols) (hm : st.mcols = st.cols)
    (ht : Trace cfg env dive st n st') :
    (st'.cols.map Column.name).Nodup ∧ st'.mcols = st'.cols ∧ st.cols <+: st'.cols ∧ Numbered st'.cols := by
  obtain ⟨h1, h2, _⟩ := Trace.pool (Q := fun _ => True) ⟨hnum, hm⟩ (fun _ _ _ _ _ _ _ _ => PriceOk.true) ht
  exact ⟨h1.1.nodup, h1.2, h2, h1.1⟩

/-- **C33** for a run with both phases (`dive`) and the final integer problem: every variable of the final master
problem belongs to exactly one column of the pool and vice versa. -/
theorem C33_run {st st' : SolveState} {f : Final} {old : List Column} {fuel : Nat} (hnum : Numbered st.cols)
    (hm : st.mcols = st.cols) (h : run cfg env dive old fuel st = .ok (some (st', f))) :
    (st'.cols.map Column.name).Nodup ∧ st'.mcols = st'.cols ∧ st.cols <+: st'.cols := by
  unfold run at h
  cases h1 : columnGeneration cfg env false fuel st with
  | error e => simp [h1] at h
  | ok r =>
    cases r with
    | none => simp [h1] at h
    | some st1 =>
      simp only [h1] at h
      obtain ⟨n, _, ht, _⟩ := columnGeneration_trace h1
      obtain ⟨a1, a2, a3, a4⟩ := C33_bookkeeping hnum hm ht
      cases dive with
      | true =>
        simp only [if_true] at h
        cases h2 : columnGeneration cfg env true fuel { st1 with more := true } with
        | error e => simp [h2] at h
        | ok r =>
          cases r with
          | none => simp [h2] at h
          | some st2 =>
            simp only [h2, Except.ok.injEq, Option.some.injEq, Prod.mk.injEq] at h
            obtain ⟨rfl, _⟩ := h
            obtain ⟨n', _, ht', _⟩ := columnGeneration_trace h2
            obtain ⟨b1, b2, b3, _⟩ := C33_bookkeeping (st := { st1 with more := true }) a4 a2 ht'
            exact ⟨b1, b2, a3.trans b3⟩
      | false =>
        simp only [Bool.false_eq_true, if_false] at h
        cases h2 : solveMIP cfg env old st1 with
        | error e => simp [h2] at h
        | ok r =>
          simp only [h2, Except.ok.injEq, Option.some.injEq] at h
          subst h
          unfold solveMIP at h2
          split at h2
          · simp only at h2
            split at h2
            · simp only [Except.ok.injEq, Prod.mk.injEq] at h2
              obtain ⟨rfl, _⟩ := h2
              exact ⟨a1, a2, a3⟩
            · cases h2
          · simp only [Except.ok.injEq, Prod.mk.injEq] at h2
            obtain ⟨rfl, _⟩ := h2
            exact ⟨a1, a2, a3⟩

/-- The initial columns are numbered. -/
theorem C33_initial {G : Net} {caps : List ℚ} {rs : List (List Node)} {cols : List Column}
    (h : convertRoutes G caps rs = .ok cols) : Numbered cols := by
  have hall := py_mapM_ok.1 h
  intro i c hc
  have hci : i < cols.length := by
    by_contra hlt
    rw [List.getElem?_eq_none (by omega)] at hc
    cases hc
  have hri : i < (rs.zipIdx 1).length := by rw [hall.length_eq]; exact hci
  have := (List.forall₂_iff_get.1 hall).2 i hri hci
  rw [List.getElem?_eq_getElem hci] at hc
  simp only [List.get_eq_getElem, Option.some.inj hc] at this
  obtain ⟨_, k, hk, rfl⟩ := convertRoute_ok.1 this
  simp [ColName.index, Nat.add_comm]

/-! ## C34 -/

theorem exact_mem {m h : Heur} : Strategy.exact ∈ strategies (.fixed m) h := by
  by_cases hh : h = .exact <;> simp [strategies, hh]

/-- **C34** (fixed strategies).  Column generation ends only because the time is up, because a limit on the iterations is
reached, or after an iteration in which exact pricing found no column for any vehicle type (with the global span: and any
route of the pool), with the dual values of the master problem solved in that very iteration. -/
theorem C34_exact_failed_partial {st st' : SolveState} {m : Heur} {fuel : Nat} (hnum : Numbered st.cols)
    (hmc : st.mcols = st.cols) (hmore : st.more = true) (hp : cfg.pricing = .fixed m)
    (h : columnGeneration cfg env dive fuel st = .ok (some st')) :
    env.timeUp st'.tick = true ∨ limitReached cfg st' = true ∨
      ∃ n stm d cost st1, Trace cfg env dive st n stm ∧ solveMaster cfg env dive stm = .ok (d, cost, st1) ∧
        findColumns cfg env dive stm = .ok st' ∧ st'.more = false ∧
        ∀ k < cfg.K, ∃ cols, stm.cols <+: cols ∧ cols <+: st'.cols ∧
          (cfg.M.globalSpan = false → ∃ t, price cfg env t d k none cols .exact = .ok (cols, false)) ∧
          (cfg.M.globalSpan = true → ∀ c ∈ cols, ∃ t, price cfg env t d k (some c.name) cols .exact = .ok (cols, false)) := by
  obtain ⟨n, _, ht, hend⟩ := columnGeneration_trace h
  rcases hend with hend | ⟨_, hend | hend⟩
  · right; right
    cases ht with
    | zero => rw [hmore] at hend; cases hend
    | @snoc n a _ h1 h2 h3 h4 =>
      obtain ⟨d, cost, st1, hh, st2, st3, e1, e2, e3, e4⟩ := findColumns_inv h4
      refine ⟨n, a, d, cost, st1, h1, e1, h4, hend, ?_⟩
      obtain ⟨i1, _⟩ := Trace.pool (Q := fun _ => True) ⟨hnum, hmc⟩ (fun _ _ _ _ _ _ _ _ => PriceOk.true) h1
      obtain ⟨m1, m2, _⟩ := solveMaster_step e1
      obtain ⟨n1, n2, _⟩ := nextStrategy_step e2
      obtain ⟨c1, _, _, c4, _⟩ := count_step e4
      have hinv2 : Inv st2 := by
        unfold Inv
        rw [n1, n2, m1, m2]
        exact i1
      obtain ⟨_, _, _, v4, _⟩ := vehicleLoop_step (Q := fun _ => True) PriceOk.true (Or.inr fun _ => trivial) (fun k hk => List.mem_range.1 hk) hinv2 e3
      intro k hk
      obtain ⟨cols, f1, f2, f3⟩ := v4 (c4 ▸ hend) k (List.mem_range.2 hk)
      refine ⟨cols, by rw [← m1, ← n1]; exact f1, by rw [c1]; exact f2, ?_, ?_⟩
      · intro hs
        refine f3 (none, .exact) ?_
        simp only [jobs, hs, Bool.false_eq_true, if_false, List.mem_map, Prod.mk.injEq, true_and, exists_eq_right, hp]
        exact exact_mem
      · intro hs c hc
        refine f3 (some c.name, .exact) ?_
        simp only [jobs, hs, if_true, List.mem_flatMap, List.mem_map, hp]
        exact ⟨c, hc, .exact, exact_mem, rfl⟩
  · exact Or.inl hend
  · exact Or.inr (Or.inl hend)

/-- What an LP solver promises about the dual values of the relaxed master problem: they are dual feasible and their value
is not below the optimal value.  (The duals of the bounds `y ≤ 1` are not reported; they are at most 0.) -/
structure _root_.Vrpy.Spec.DualsOk (M : Master) (cols : List Column) (a : Master.Answer) : Prop where
  fleet : M.useAllVehicles = false → ∀ k < M.numVehicles.length, a.fleetDual k ≤ 0
  drop : ∀ v ∈ M.drops, a.visitDual v ≤ M.dropPenalty
  value : (M.objective cols).eval a.point ≤ (M.G.customers.map a.visitDual).sum +
    ((List.range M.numVehicles.length).map (fun k => a.fleetDual k * (M.numVehicles.getD k 0 : ℚ))).sum

/-- The limits of the routes of one vehicle type. -/
def _root_.Vrpy.Spec.limitsOf (cfg : SolveCfg) (k : Nat) : PricingLP where
  G := cfg.M.G
  weight := fun _ _ => 0
  vehicleType := k
  caps := cfg.caps
  numStops := cfg.numStops
  duration := cfg.duration
  timeWindows := cfg.timeWindows
  pickupDelivery := cfg.pickupDelivery
  distributionCollection := cfg.distributionCollection

/-- Exact pricing with an exact solver that finds nothing: no route within the limits has a reduced cost below `-1/1000`. -/
theorem no_route_left {d : Duals} {t k : Nat} {cols : List Column} (hG : WellFormed cfg.M.G)
    (hd : cfg.M.G.demand .source = 0) (hs : cfg.M.G.service .sink = 0) (hcspy : cfg.cspy = false)
    (htw : cfg.timeWindows = true → WindowsFit cfg.M.G)
    (hsolver : SolverExact (env.pricing t)) (h : price cfg env t d k none cols .exact = .ok (cols, false)) :
    ∃ w, reducedCosts cfg.M.G d k none = .ok w ∧ ∀ r,
      Admissible (limitsOf cfg k) r → VariantFit (limitsOf cfg k) r → -(1 / 1000) ≤ legSum w r := by
  unfold price subProblem at h
  cases hw : reducedCosts cfg.M.G d k none with
  | error e => simp [hw] at h
  | ok w =>
    refine ⟨w, rfl, fun r hr hvar => ?_⟩
    simp only [hw, hcspy, Bool.false_eq_true, if_false] at h
    by_contra hlt
    push Not at hlt
    generalize hq : ({ G := cfg.M.G, weight := w, vehicleType := k, caps := cfg.caps, numStops := cfg.numStops,
                       duration := cfg.duration, timeWindows := cfg.timeWindows, pickupDelivery := cfg.pickupDelivery,
                       distributionCollection := cfg.distributionCollection, negCycle := env.negCycle cfg.M.G w } :
                         PricingLP) = q at h
    have hqG : q.G = cfg.M.G := by rw [← hq]
    have hqw : q.weight = w := by rw [← hq]
    have hadm : Admissible q r := by
      rw [← hq]
      exact ⟨hr.simple, hr.nonempty, hr.stops, hr.load, hr.duration, hr.onTime⟩
    have hvar : VariantFit q r := by
      rw [← hq]
      refine ⟨fun h c hc => ?_, fun h c hc => ?_⟩
      · have h2 := hvar.requests h c hc
        exact ⟨h2.small, h2.customers, h2.together, h2.loads, h2.empty⟩
      · have h2 := hvar.goods h c hc
        exact ⟨h2.demand, h2.collect, h2.goods⟩
    cases hform : q.formulate with
    | error err => simp [PricingLP.solve, hform] at h
    | ok prob =>
      obtain ⟨x, hx, _, hobj⟩ := C18_routes_feasible_partial (by rw [hqG]; exact hG) (by rw [hqG]; exact hd)
        (by rw [hqG]; exact hs) (by rw [hqG, ← hq]; exact htw) hvar hform hadm
      obtain ⟨y, hy⟩ := optimal_exists hform hx
      obtain ⟨h1, h2, h3⟩ := hsolver prob y hy
      have hle := h2.best x hx
      rw [hobj, hqw] at hle
      have hz : prob.obj.eval (env.pricing t prob).point < -(1 / 1000) := lt_of_le_of_lt hle hlt
      simp only [PricingLP.solve, hform, Bool.not_true, Bool.or_self, Bool.false_eq_true, if_false, h3, h1, and_true] at h
      rw [if_pos hz] at h
      cases hadd : q.addRoute cfg.keys cols (env.pricing t prob).point with
      | error err => simp [hadd] at h
      | ok c => simp [hadd] at h

/-- **C34, C54** together (LP pricing, fixed strategies, no global span, not periodic): if the first phase of column
generation ends before a limit is reached, the last value of `lower_bound` is a lower bound, up to 1/1000 per vehicle, for
the cost of every plan whose routes respect the limits.  What is missing: pricing with cspy, for which it is false
(`C22_counterexample`), the hyper-heuristic, for which it is false (`C34_hyper_counterexample`), and the global span; for
periodic problems see `C34_horizon_partial`. -/
theorem C34_lower_bound_partial {st st' : SolveState} {m : Heur} {fuel : Nat} (hnum : Numbered st.cols)
    (hmc : st.mcols = st.cols) (hmore : st.more = true) (hp : cfg.pricing = .fixed m) (hG : WellFormed cfg.M.G)
    (hd : cfg.M.G.demand .source = 0) (hs : cfg.M.G.service .sink = 0) (hcspy : cfg.cspy = false)
    (htw : cfg.timeWindows = true → WindowsFit cfg.M.G) (hspan : cfg.M.globalSpan = false) (hper : cfg.M.periodic = false)
    (hsolver : ∀ t, SolverExact (env.pricing t))
    (hduals : ∀ n stm, Trace cfg env false st n stm → (env.master stm.tick (cfg.M.lp stm.mcols true)).optimal = true →
      DualsOk cfg.M stm.mcols (env.master stm.tick (cfg.M.lp stm.mcols true)))
    (h : columnGeneration cfg env false fuel st = .ok (some st'))
    (hlim : limitReached cfg st' = false) (htime : env.timeUp st'.tick = false) :
    ∃ bound, st'.bounds.getLast? = some bound ∧
      ∀ (P : Plan) (dropped : List Node), ValidPlan cfg.M.G cfg.M.numVehicles cfg.M.useAllVehicles dropped P →
        (∀ v ∈ dropped, v ∈ cfg.M.drops) → (∀ e ∈ P, e.1 < cfg.K) →
        (∀ e ∈ P, Admissible (limitsOf cfg e.1) e.2 ∧ VariantFit (limitsOf cfg e.1) e.2) →
        bound ≤ planCost cfg.M.G P + cfg.M.dropPenalty * (cfg.M.G.customers.filter (fun v => v ∈ dropped)).length +
          1 / 1000 * P.length := by
  rcases C34_exact_failed_partial hnum hmc hmore hp h with h' | h' | ⟨n, stm, d, cost, st1, htr, hsm, hf, _, hfail⟩
  · rw [htime] at h'; cases h'
  · rw [hlim] at h'; cases h'
  · obtain ⟨d', cost', st1', hh, st2, st3, e1, e2, e3, e4⟩ := findColumns_inv hf
    rw [hsm] at e1
    simp only [Except.ok.injEq, Prod.mk.injEq] at e1
    obtain ⟨rfl, rfl, rfl⟩ := e1
    obtain ⟨_, _, _, _, _, _, _, _, c9, _⟩ := count_step e4
    refine ⟨cost, by rw [c9]; simp, ?_⟩
    intro P dropped hP hdr hK hadm
    simp only [solveMaster, Bool.false_eq_true, if_false, solveRelaxed] at hsm
    by_cases hopt : (env.master stm.tick (cfg.M.lp stm.mcols true)).optimal = true
    · rw [if_pos hopt] at hsm
      simp only [Except.ok.injEq, Prod.mk.injEq] at hsm
      obtain ⟨rfl, rfl, _⟩ := hsm
      have hdu := hduals n stm htr hopt
      generalize env.master stm.tick (cfg.M.lp stm.mcols true) = a at hdu hfail
      refine hdu.value.trans ?_
      have hno : ∀ e ∈ P, ∃ w, reducedCosts cfg.M.G (cfg.M.duals stm.cols a) e.1 none = .ok w ∧
          -(1 / 1000) ≤ legSum w e.2 := by
        intro e he
        obtain ⟨cols, _, _, hx, _⟩ := hfail e.1 (hK e he)
        obtain ⟨t, ht⟩ := hx hspan
        obtain ⟨w, hw, hno⟩ := no_route_left hG hd hs hcspy htw (hsolver t) ht
        exact ⟨w, hw, hno e.2 (hadm e he).1 (hadm e he).2⟩
      refine Master.C54_weak_duality hG hper a hP hdu.fleet (fun v _ hv => hdu.drop v (hdr v hv))
        (w := fun k => match reducedCosts cfg.M.G (cfg.M.duals stm.cols a) k none with | .ok w => w | .error _ => fun _ _ => 0)
        (cols := stm.cols) ?_ ?_
      · intro e he
        obtain ⟨w, hw, _⟩ := hno e he
        simp only [hw]
      · intro e he
        obtain ⟨w, hw, hle⟩ := hno e he
        simp only [hw]
        exact hle
    · simp [hopt] at hsm

/-! ## C35 -/

/-- Every iteration is counted. -/
theorem Trace.iteration {st st' : SolveState} {n : Nat} (ht : Trace cfg env dive st n st') (hinv : Inv st) :
    st'.iteration = st.iteration + n := by
  induction ht with
  | zero => rfl
  | @snoc n a b h1 h2 h3 h4 ih =>
    obtain ⟨d, cost, st1, hh, st2, st3, e1, e2, e3, e4⟩ := findColumns_inv h4
    obtain ⟨i1, _⟩ := Trace.pool (Q := fun _ => True) hinv (fun _ _ _ _ _ _ _ _ => PriceOk.true) h1
    obtain ⟨m1, m2, m3, _⟩ := solveMaster_step e1
    obtain ⟨n1, n2, n3, _⟩ := nextStrategy_step e2
    obtain ⟨_, _, c3, _⟩ := count_step e4
    have hinv2 : Inv st2 := by
      unfold Inv
      rw [n1, n2, m1, m2]
      exact i1
    obtain ⟨_, _, v3, _⟩ := vehicleLoop_step (Q := fun _ => True) PriceOk.true (Or.inr fun _ => trivial) (fun k hk => List.mem_range.1 hk) hinv2 e3
    rw [c3, v3.iteration, n3, m3, ih]
    omega

/-- **C35.** With `max_iter = m ≥ 1`, a first call makes at most `m` iterations, whatever pricing, the solvers and the
clock answer … -/
theorem C35_max_iter {st st' : SolveState} {n : Nat} (hinv : Inv st) (h0 : st.iteration = 0) (hmax : cfg.maxIter ≠ 0)
    (ht : Trace cfg env dive st n st') : n ≤ cfg.maxIter := by
  cases ht with
  | zero => omega
  | @snoc n a _ h1 h2 h3 h4 =>
    rcases h3 with h3 | h3
    · omega
    · have := h1.iteration hinv
      have hl := h3.2
      simp only [limitReached, Bool.or_eq_false_iff, Bool.and_eq_false_iff, decide_eq_false_iff_not] at hl
      rcases hl.2 with h | h
      · exact absurd hmax h
      · omega

/-- … and so it ends: the loop never needs more fuel than that. -/
theorem C35_terminates {st : SolveState} {fuel : Nat} (hinv : Inv st) (h0 : st.iteration = 0) (hmax : cfg.maxIter ≠ 0)
    (hfuel : cfg.maxIter ≤ fuel) : columnGeneration cfg env dive fuel st ≠ .ok none := by
  intro h
  obtain ⟨st', h1, h2, h3⟩ := columnGeneration_none h
  rcases h3 with h3 | h3
  · omega
  · have := h1.iteration hinv
    have hl := h3.2
    simp only [limitReached, Bool.or_eq_false_iff, Bool.and_eq_false_iff, decide_eq_false_iff_not] at hl
    rcases hl.2 with h | h
    · exact absurd hmax h
    · omega

/-- **C35.** The search stops in the first iteration after which the time is found to be up. -/
theorem C35_time {st st' : SolveState} {n fuel : Nat} (ht : Trace cfg env dive st n st') (hn : n ≠ 0)
    (hup : env.timeUp st'.tick = true) (hfuel : n ≤ fuel) : columnGeneration cfg env dive fuel st = .ok (some st') :=
  ht.stop hn (Or.inl hup) hfuel

/-- The last `k + 1` values are equal, and no more than these. -/
def _root_.Vrpy.Spec.Stagnant (bs : List ℚ) (k : Nat) : Prop :=
  ∃ pre b, bs = pre ++ List.replicate (k + 1) b ∧ pre.getLast? ≠ some b

theorem Trace.bounds {st st' : SolveState} {n : Nat} {m : Heur} (hp : cfg.pricing = .fixed m) (hinv : Inv st)
    (h0 : st.iteration = 0) (hb : st.bounds = []) (ht : Trace cfg env false st n st') :
    st'.bounds.length = n ∧ (n ≠ 0 → Stagnant st'.bounds st'.noImprovement) := by
  have hit := ht.iteration hinv
  induction ht with
  | zero => simp [hb]
  | @snoc n a b h1 h2 h3 h4 ih =>
    have hit1 := h1.iteration hinv
    obtain ⟨ih1, ih2⟩ := ih hit1
    obtain ⟨d, cost, st1, hh, st2, st3, e1, e2, e3, e4⟩ := findColumns_inv h4
    obtain ⟨i1, _⟩ := Trace.pool (Q := fun _ => True) hinv (fun _ _ _ _ _ _ _ _ => PriceOk.true) h1
    obtain ⟨m1, m2, m3, m4, m5, _⟩ := solveMaster_step e1
    obtain ⟨n1, n2, n3, n4, _, _, _, _, n9⟩ := nextStrategy_step e2
    have n9 : st2.noImprovement = st1.noImprovement := by
      rcases n9 with h | ⟨_, h⟩
      · exact h
      · rw [hp] at h; cases h
    have hinv2 : Inv st2 := by
      unfold Inv
      rw [n1, n2, m1, m2]
      exact i1
    obtain ⟨_, _, v3, _⟩ := vehicleLoop_step (Q := fun _ => True) PriceOk.true (Or.inr fun _ => trivial) (fun k hk => List.mem_range.1 hk) hinv2 e3
    have hb3 : st3.bounds = a.bounds := by rw [v3.bounds, n4, m5]
    have hn3 : st3.noImprovement = a.noImprovement := by rw [v3.noImprovement, n9, m4]
    have hi3 : st3.iteration = n := by rw [v3.iteration, n3, m3, hit1, h0, Nat.zero_add]
    unfold count at e4
    simp only [Bool.false_eq_true, if_false, hb3, hn3, hi3] at e4
    by_cases hn : n = 0
    · subst hn
      simp only [Nat.zero_add, gt_iff_lt, Nat.lt_irrefl, if_false, Except.ok.injEq] at e4
      subst e4
      have : a.bounds = [] := List.length_eq_zero_iff.1 ih1
      refine ⟨by simp [this], fun _ => ⟨[], cost, by simp [this], by simp⟩⟩
    · rw [if_pos (by omega)] at e4
      obtain ⟨pre, b0, p1, p2⟩ := ih2 hn
      have hlast : a.bounds.getLast? = some b0 := by
        rw [p1, List.replicate_succ']
        simp
      simp only [hlast, Except.ok.injEq] at e4
      subst e4
      refine ⟨by simp [ih1], fun _ => ?_⟩
      by_cases hc : cost = b0
      · refine ⟨pre, b0, ?_, p2⟩
        simp only [hc, if_true]
        rw [p1, List.append_assoc, ← List.replicate_succ']
      · refine ⟨a.bounds, cost, ?_, ?_⟩
        · simp [hc]
        · rw [hlast]
          intro h
          exact hc (Option.some.inj h).symm

/-- **C35** (fixed strategies): as long as the search goes on, at most the last 1001 objective values are equal; as soon as
1002 are (more than 1000 iterations without change), it stops.  (`bounds` are the objective values of the iterations.) -/
theorem C35_stagnation_partial {st st' : SolveState} {n : Nat} {m : Heur} (hp : cfg.pricing = .fixed m) (hinv : Inv st)
    (h0 : st.iteration = 0) (hb : st.bounds = []) (ht : Trace cfg env false st n st') (hn : n ≠ 0) :
    st'.bounds.length = n ∧ ∃ k, Stagnant st'.bounds k ∧
      (k > 1000 → ∀ fuel, n ≤ fuel → columnGeneration cfg env false fuel st = .ok (some st')) ∧ k ≤ 1001 := by
  obtain ⟨h1, h2⟩ := Trace.bounds hp hinv h0 hb ht
  refine ⟨h1, _, h2 hn, ?_, ?_⟩
  · intro hk fuel hf
    refine ht.stop hn (Or.inr ?_) hf
    simp [limitReached, hk]
  · cases ht with
    | zero => exact absurd rfl hn
    | @snoc n a _ g1 g2 g3 g4 =>
      obtain ⟨d, cost, st1, hh, st2, st3, e1, e2, e3, e4⟩ := findColumns_inv g4
      obtain ⟨i1, _⟩ := Trace.pool (Q := fun _ => True) hinv (fun _ _ _ _ _ _ _ _ => PriceOk.true) g1
      obtain ⟨m1, m2, m3, m4, m5, _⟩ := solveMaster_step e1
      obtain ⟨n1, n2, n3, n4, _, _, _, _, n9⟩ := nextStrategy_step e2
      have n9 : st2.noImprovement = st1.noImprovement := by
        rcases n9 with h | ⟨_, h⟩
        · exact h
        · rw [hp] at h; cases h
      have hinv2 : Inv st2 := by
        unfold Inv
        rw [n1, n2, m1, m2]
        exact i1
      obtain ⟨_, _, v3, _⟩ := vehicleLoop_step (Q := fun _ => True) PriceOk.true (Or.inr fun _ => trivial) (fun k hk => List.mem_range.1 hk) hinv2 e3
      obtain ⟨_, _, _, _, _, _, _, _, _, c10⟩ := count_step e4
      have hi3 : st3.iteration = n := by rw [v3.iteration, n3, m3, g1.iteration hinv, h0, Nat.zero_add]
      rcases c10 with c10 | ⟨c10, _⟩
      · omega
      · rcases g3 with g3 | g3
        · subst g3
          unfold count at e4
          simp only [hi3, Nat.zero_add, gt_iff_lt, Nat.lt_irrefl, if_false, Except.ok.injEq] at e4
          subst e4
          simp
        · have := g3.2
          simp only [limitReached, Bool.or_eq_false_iff, decide_eq_false_iff_not] at this
          rw [c10, v3.noImprovement, n9, m4]
          omega

/-- With the hyper-heuristic `_no_improvement` is set to the number of iterations: after 1000 iterations a single iteration
without change ends the search (so that the claim about stagnation is false for it). -/
theorem C35_hyper_stagnation {st st' : SolveState} (hp : cfg.pricing = .hyper) (hinv : Inv st) (hi : 1000 ≤ st.iteration)
    (hne : st.noImprovement ≠ cfg.runExact) (hsame : ∀ d cost st1, solveMaster cfg env false st = .ok (d, cost, st1) →
      st.bounds.getLast? = some cost)
    (h : findColumns cfg env false st = .ok st') : limitReached cfg st' = true := by
  obtain ⟨d, cost, st1, hh, st2, st3, e1, e2, e3, e4⟩ := findColumns_inv h
  obtain ⟨m1, m2, m3, m4, m5, _⟩ := solveMaster_step e1
  have hs := hsame d cost st1 e1
  obtain ⟨n1, n2, n3, n4, _⟩ := nextStrategy_step e2
  have hinv2 : Inv st2 := by
    unfold Inv
    rw [n1, n2, m1, m2]
    exact hinv
  obtain ⟨_, _, v3, _⟩ := vehicleLoop_step (Q := fun _ => True) PriceOk.true (Or.inr fun _ => trivial) (fun k hk => List.mem_range.1 hk) hinv2 e3
  have hn2 : st2.noImprovement = st.iteration := by
    unfold nextStrategy at e2
    rw [hp] at e2
    simp only [m4] at e2
    rw [if_pos hne] at e2
    unfold nextHyper at e2
    split at e2
    · cases e2
    · rw [if_neg (by omega)] at e2
      split at e2
      · cases e2
      · simp only [Except.ok.injEq, Prod.mk.injEq] at e2
        obtain ⟨_, rfl⟩ := e2
        exact m3
  unfold count at e4
  simp only [v3.bounds, n4, m5, hs, v3.iteration, n3, m3] at e4
  rw [if_pos (by omega)] at e4
  simp only [Except.ok.injEq, if_true] at e4
  subst e4
  simp only [limitReached, v3.noImprovement, hn2, Bool.or_eq_true, decide_eq_true_eq]
  left
  omega

end Solve

end Vrpy
