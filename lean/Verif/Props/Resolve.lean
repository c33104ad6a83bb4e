import Verif.Proofs.Resolve
import Verif.Props.EndToEnd

/-!
# C36, C37: calling `solve()` again
-/

namespace Vrpy

open Spec

/-- Any number of calls to `solve()` that return, with arguments as in `A`, in any worlds. -/
inductive Spec.Calls (A : SolveArgs → Prop) : Obj → Obj → Prop
  | refl (o : Obj) : Calls A o o
  | step {o o1 o2 : Obj} (w : World) (a : SolveArgs) (fuel : Nat) : Calls A o o1 → A a →
      o1.solve w a fuel = .ok (some o2) → Calls A o o2

/-- What a call hands on: the network with its costs, the limits, the fleet, the options (`cfg`) and the first columns to
column generation, the fleet to the scheduling problem. -/
structure Presented where
  cfg : SolveCfg
  cols : List Column
  schedule : List Nat

/-- A call presents a problem (`vrpy/vrp.py:242-258`, `:485-494`). -/
def Spec.Presents (w : World) (a : SolveArgs) (fuel : Nat) (o : Obj) (x : Presented) : Prop :=
  ∃ P P', o.P.startSolve w.dist a.strategy a.cspy a.initialRoutes a.preassignments = .ok P ∧
    P.initialize P.G.toNet w.cw fuel = .ok (some (P', x.cols)) ∧ x.cfg = P'.solveCfg a w.falsy ∧
    x.schedule = P'.numVehiclesSchedule

/-- A call that returns has presented a problem, and run column generation on it. -/
theorem presents_of_solve {w : World} {a : SolveArgs} {fuel : Nat} {o o' : Obj} (hh : a.heuristicOnly = false)
    (h : o.solve w a fuel = .ok (some o')) : ∃ x, Presents w a fuel o x ∧
      ∃ s st f, s.cols = x.cols ∧ Solve.run x.cfg w.toEnv a.dive o.graphs fuel s = .ok (some (st, f)) := by
  unfold Obj.solve at h
  cases hs : o.P.startSolve w.dist a.strategy a.cspy a.initialRoutes a.preassignments with
  | error e => simp only [hs] at h; cases h
  | ok P =>
    simp only [hs, hh, Bool.false_eq_true, if_false] at h
    unfold Obj.columnGeneration at h
    cases hi : P.initialize P.G.toNet w.cw fuel with
    | error e => simp only [hi] at h; cases h
    | ok x =>
      cases x with
      | none => simp only [hi] at h; cases h
      | some y =>
        obtain ⟨P', cols⟩ := y
        simp only [hi] at h
        cases hc : P'.master.create cols with
        | error e => simp only [hc] at h; cases h
        | ok m =>
          simp only [hc] at h
          refine ⟨⟨P'.solveCfg a w.falsy, cols, P'.numVehiclesSchedule⟩, ⟨P, P', hs, hi, rfl, rfl⟩, ?_⟩
          cases hr : Solve.run (P'.solveCfg a w.falsy) w.toEnv a.dive o.graphs fuel (o.start a P' cols) with
          | error e => simp only [hr] at h; cases h
          | ok z =>
            cases z with
            | none => simp only [hr] at h; cases h
            | some p => exact ⟨o.start a P' cols, p.1, p.2, rfl, hr⟩

theorem initialize_object {P P' : Vrp} {N : Net} {cw : ℚ → CWOracle} {fuel : Nat} {cols : List Column}
    (h : P.initialize N cw fuel = .ok (some (P', cols))) :
    P' = { P with initialRoutes := P'.initialRoutes } ∧
      convertRoutes N (capacities P.loadCapacity.toList) P'.initialRoutes = .ok cols ∧
      (P.initialRoutes ≠ [] → P'.initialRoutes = P.initialRoutes) := by
  unfold Vrp.initialize at h
  cases hch : P.chooseInitial N cw fuel with
  | error e => simp only [hch] at h; cases h
  | ok x =>
    cases x with
    | none => simp only [hch] at h; cases h
    | some rs =>
      simp only [hch] at h
      cases hcv : convertRoutes N (capacities P.loadCapacity.toList) rs with
      | error e => simp only [hcv] at h; cases h
      | ok cols' =>
        simp only [hcv, Except.ok.injEq, Option.some.injEq, Prod.mk.injEq] at h
        obtain ⟨rfl, rfl⟩ := h
        refine ⟨rfl, hcv, fun hne => ?_⟩
        unfold Vrp.chooseInitial at hch
        rw [if_pos hne] at hch
        split at hch
        · cases hch
        · cases hch; rfl

/-- What a call leaves of the object: the pre-processed one, with other initial routes. -/
theorem solve_object {w : World} {a : SolveArgs} {fuel : Nat} {o o' : Obj} (h : o.solve w a fuel = .ok (some o')) :
    ∃ P, o.P.startSolve w.dist a.strategy a.cspy a.initialRoutes a.preassignments = .ok P ∧
      o'.P = { P with initialRoutes := o'.P.initialRoutes } ∧ (P.initialRoutes ≠ [] → o'.P.initialRoutes = P.initialRoutes) ∧
      (a.heuristicOnly = false → ∃ cols, P.initialize P.G.toNet w.cw fuel = .ok (some (o'.P, cols))) := by
  unfold Obj.solve at h
  cases hs : o.P.startSolve w.dist a.strategy a.cspy a.initialRoutes a.preassignments with
  | error e => simp only [hs] at h; cases h
  | ok P =>
    simp only [hs] at h
    refine ⟨P, rfl, ?_⟩
    cases hh : a.heuristicOnly with
    | true =>
      simp only [hh, if_true] at h
      cases hc : Obj.clarkeWright w P o with
      | error e => simp only [hc] at h; cases h
      | ok o2 =>
        simp only [hc, Except.ok.injEq, Option.some.injEq] at h
        subst h
        unfold Obj.clarkeWright at hc
        simp only [py_bind_ok] at hc
        obtain ⟨_, _, r, _, hc⟩ := hc
        simp only [pure, Except.pure, Except.ok.injEq] at hc
        rw [← hc]
        exact ⟨rfl, fun _ => rfl, fun hf => (by cases hf)⟩
    | false =>
      simp only [hh, Bool.false_eq_true, if_false] at h
      unfold Obj.columnGeneration at h
      cases hi : P.initialize P.G.toNet w.cw fuel with
      | error e => simp only [hi] at h; cases h
      | ok x =>
        cases x with
        | none => simp only [hi] at h; cases h
        | some y =>
          obtain ⟨P', cols⟩ := y
          simp only [hi] at h
          cases hc : P'.master.create cols with
          | error e => simp only [hc] at h; cases h
          | ok m =>
            simp only [hc] at h
            cases hr : Solve.run (P'.solveCfg a w.falsy) w.toEnv a.dive o.graphs fuel (o.start a P' cols) with
            | error e => simp only [hr] at h; cases h
            | ok z =>
              cases z with
              | none => simp only [hr] at h; cases h
              | some p =>
                obtain ⟨st, f⟩ := p
                simp only [hr] at h
                split at h
                · cases h
                · rename_i o2 hp
                  simp only [Except.ok.injEq, Option.some.injEq] at h
                  subst h
                  unfold Obj.postProcess at hp
                  simp only [py_bind_ok] at hp
                  obtain ⟨_, _, _, _, _, _, hp⟩ := hp
                  simp only [pure, Except.pure, Except.ok.injEq] at hp
                  rw [← hp]
                  obtain ⟨i1, i2, i3⟩ := initialize_object hi
                  exact ⟨i1, i3, fun _ => ⟨cols, rfl⟩⟩

/-- Problems that can be solved again: no fixed costs, no time windows, not periodic with a bounded fleet; demands are not
negative. -/
structure Spec.Repeatable (P : Vrp) : Prop where
  wf : P.G.WF
  customer : ∃ n, Node.cust n ∈ P.G.nodes
  costs : CostsAsDocumented P
  demand : ∀ v ∈ P.G.nodes, 0 ≤ userDemand P.G v
  timeWindows : P.timeWindows = false
  fixedCost : P.fixedCost = .one 0 ∨ P.fixedCost = .many []
  fleet : P.periodic.getD 0 = 0 ∨ userFleet P.numVehicles = []

/-- After any calls the object is the fresh one, or the pre-processed one up to the initial routes and the graph of the
reports. -/
theorem calls_object {w : World} {a : SolveArgs} {P0 P1 : Vrp} {o o' : Obj} (hR : Repeatable P0) (ha : a.preassignments = [])
    (hc : Obj.create P0 = .ok o) (h : o.P.startSolve w.dist a.strategy a.cspy a.initialRoutes a.preassignments = .ok P1)
    {A : SolveArgs → Prop} (hA : ∀ b, A b → b.preassignments = []) (hcalls : Calls A o o') :
    o' = o ∨ ∃ rs H, o'.P = { P1 with initialRoutes := rs, H := H } := by
  induction hcalls with
  | refl => exact Or.inl rfl
  | step w2 b fuel _ hb hs ih =>
    right
    obtain ⟨P, hP, hP', _⟩ := solve_object hs
    rw [hA b hb] at hP
    rcases ih with rfl | ⟨rs, H, hrs⟩
    · rw [ha] at h
      rw [startSolve_det h hP] at hP'
      exact ⟨_, _, hP'⟩
    · rw [hrs] at hP
      rw [startSolve_again hR.wf hR.customer hR.costs hR.demand ha hR.timeWindows hR.fixedCost hR.fleet hc h hP] at hP'
      exact ⟨_, _, hP'⟩

/-- **C36 (partial).**  Full claim: every call on the same object with the same arguments presents the same problem (arc costs,
limits, fleet) to the solver, whatever was called before.  That is false with fixed costs, time windows, periodic fleets,
and preassignments: see the counterexamples below.  Proved: without these, after any number of calls with any arguments,
everything column generation reads is the same as in a first call, except for the table of initial routes. -/
theorem C36_same_problem_partial {w w' : World} {a : SolveArgs} {fuel fuel' : Nat} {P0 : Vrp} {o o' : Obj}
    {x x' : Presented} (hR : Repeatable P0) (ha : a.preassignments = [])
    (hw : w'.falsy = w.falsy) (hc : Obj.create P0 = .ok o) (hcalls : Calls (fun b => b.preassignments = []) o o')
    (h : Presents w a fuel o x) (h' : Presents w' a fuel' o' x') :
    x'.cfg = { x.cfg with keys := x'.cfg.keys } ∧ x'.schedule = x.schedule := by
  obtain ⟨cfg, cols, sch⟩ := x
  obtain ⟨cfg', cols', sch'⟩ := x'
  obtain ⟨P1, P1', hP1, hi1, rfl, rfl⟩ := h
  obtain ⟨P2, P2', hP2, hi2, rfl, rfl⟩ := h'
  simp only at hi1 hi2
  have key : ∃ rs H, P2 = { P1 with initialRoutes := rs, H := H } := by
    rcases calls_object hR ha hc hP1 (fun _ hb => hb) hcalls with rfl | ⟨rs, H, hrs⟩
    · exact ⟨_, _, startSolve_det hP1 hP2⟩
    · rw [hrs, ha] at hP2
      exact ⟨_, _, startSolve_again hR.wf hR.customer hR.costs hR.demand ha hR.timeWindows hR.fixedCost hR.fleet
        hc hP1 hP2⟩
  obtain ⟨rs, H, rfl⟩ := key
  have e1 := (initialize_object hi1).1
  have e2 := (initialize_object hi2).1
  generalize P1'.initialRoutes = r1 at *
  generalize hr2 : P2'.initialRoutes = r2 at *
  subst e1 e2
  rw [hw]
  exact ⟨rfl, rfl⟩

/-- **C36 (partial), the columns.**  If initial routes are given with the call, the first columns are the same too. -/
theorem C36_same_columns_partial {w w' : World} {a : SolveArgs} {fuel fuel' : Nat} {P0 : Vrp} {o o' : Obj}
    {x x' : Presented} (hR : Repeatable P0) (ha : a.preassignments = [])
    (hinit : a.initialRoutes ≠ []) (hw : w'.falsy = w.falsy) (hc : Obj.create P0 = .ok o)
    (hcalls : Calls (fun b => b.preassignments = []) o o')
    (h : Presents w a fuel o x) (h' : Presents w' a fuel' o' x') : x' = x := by
  have h0 := C36_same_problem_partial hR ha hw hc hcalls h h'
  obtain ⟨cfg, cols, sch⟩ := x
  obtain ⟨cfg', cols', sch'⟩ := x'
  obtain ⟨P1, P1', hP1, hi1, rfl, rfl⟩ := h
  obtain ⟨P2, P2', hP2, hi2, rfl, rfl⟩ := h'
  simp only at hi1 hi2
  have key : ∃ H, P2 = { P1 with initialRoutes := a.initialRoutes, H := H } := by
    rcases calls_object hR ha hc hP1 (fun _ hb => hb) hcalls with rfl | ⟨rs, H, hrs⟩
    · have hd := startSolve_det hP1 hP2
      obtain ⟨_, _, _, _, _, T⟩ := startSolve_prepared hP2
      have e : P2.initialRoutes = a.initialRoutes := by
        rw [T.result]
        show (Vrp.prepared _ _ _).initialRoutes = _
        rw [(prepared_fields).2.1, if_pos hinit]
      rw [e] at hd
      exact ⟨_, hd⟩
    · rw [hrs, ha] at hP2
      have := startSolve_again hR.wf hR.customer hR.costs hR.demand ha hR.timeWindows hR.fixedCost hR.fleet
        hc hP1 hP2
      rw [if_pos hinit] at this
      exact ⟨_, this⟩
  obtain ⟨H, rfl⟩ := key
  have e0 : P1.initialRoutes = a.initialRoutes := by
    obtain ⟨_, _, _, _, _, T⟩ := startSolve_prepared hP1
    rw [T.result]
    show (Vrp.prepared _ _ _).initialRoutes = _
    rw [(prepared_fields).2.1, if_pos hinit]
  obtain ⟨i1, i2, i3⟩ := initialize_object hi1
  obtain ⟨j1, j2, j3⟩ := initialize_object hi2
  have r1 := i3 (by rw [e0]; exact hinit)
  have r2 := j3 hinit
  rw [r2] at j2
  rw [r1, e0] at i2
  obtain ⟨h0, h0'⟩ := h0
  simp only at h0 h0'
  rw [Presented.mk.injEq]
  refine ⟨?_, (Except.ok.inj (i2.symm.trans j2)).symm, h0'⟩
  rw [h0]
  have : (P2'.solveCfg a w'.falsy).keys = (P1'.solveCfg a w.falsy).keys := by
    show routesWithNode _ = routesWithNode _
    rw [r2, r1, e0]
  rw [this]

/-- **C36 (partial), the columns of the heuristics.**  Without initial routes, all later calls start from the columns found by
the first one. -/
theorem C36_columns_kept_partial {w w' : World} {a : SolveArgs} {fuel fuel' : Nat} {P0 : Vrp} {o o1 o' : Obj}
    {x x' : Presented} (hR : Repeatable P0) (ha : a.preassignments = [] ∧ a.initialRoutes = [])
    (hw : w'.falsy = w.falsy) (hc : Obj.create P0 = .ok o) (hh : a.heuristicOnly = false)
    (h : Presents w a fuel o x) (hne : x.cols ≠ []) (hs : o.solve w a fuel = .ok (some o1))
    (hcalls : Calls (fun b => b.preassignments = [] ∧ b.initialRoutes = []) o1 o')
    (h' : Presents w' a fuel' o' x') : x' = x := by
  obtain ⟨cfg, cols, sch⟩ := x
  obtain ⟨cfg', cols', sch'⟩ := x'
  obtain ⟨P1, P1', hP1, hi1, rfl, rfl⟩ := h
  obtain ⟨P2, P2', hP2, hi2, rfl, rfl⟩ := h'
  simp only at hi1 hi2
  obtain ⟨P, hP, q1, _, q2⟩ := solve_object hs
  rw [hP1] at hP
  cases hP
  obtain ⟨cols1, hi⟩ := q2 hh
  rw [hi1] at hi
  simp only [Except.ok.injEq, Option.some.injEq, Prod.mk.injEq] at hi
  obtain ⟨rfl, -⟩ := hi
  obtain ⟨i1, i2, _⟩ := initialize_object hi1
  have hr : o1.P.initialRoutes ≠ [] := by
    intro h0
    rw [h0] at i2
    simp only [convertRoutes, List.zipIdx_nil, List.mapM_nil, pure, Except.pure, Except.ok.injEq] at i2
    exact hne i2.symm
  -- the object keeps these routes
  have key : ∃ H, o'.P = { P1 with initialRoutes := o1.P.initialRoutes, H := H } := by
    clear hi2 hP2
    induction hcalls with
    | refl => exact ⟨_, q1⟩
    | step w2 b fuel2 _ hb hs2 ih =>
      obtain ⟨H, hH⟩ := ih
      obtain ⟨P3, hP3, u1, u2, _⟩ := solve_object hs2
      rw [hb.1, hb.2, hH] at hP3
      have e := startSolve_again hR.wf hR.customer hR.costs hR.demand ha.1 hR.timeWindows hR.fixedCost hR.fleet
        hc hP1 hP3
      rw [if_neg (by simp)] at e
      rw [e] at u1 u2
      rw [u2 hr] at u1
      exact ⟨_, u1⟩
  obtain ⟨H, hH⟩ := key
  rw [ha.1, ha.2, hH] at hP2
  have e := startSolve_again hR.wf hR.customer hR.costs hR.demand ha.1 hR.timeWindows hR.fixedCost hR.fleet
    hc hP1 hP2
  rw [if_neg (by simp)] at e
  subst e
  obtain ⟨j1, j2, j3⟩ := initialize_object hi2
  have r2 := j3 hr
  rw [r2] at j2 j1
  have hcols : cols' = cols := (Except.ok.inj (i2.symm.trans j2)).symm
  rw [Presented.mk.injEq]
  refine ⟨?_, hcols, ?_⟩
  · rw [j1, i1, hw]
    rfl
  · rw [j1, i1]

end Vrpy
