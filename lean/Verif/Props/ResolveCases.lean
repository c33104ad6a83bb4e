import Verif.Proofs.ExampleWorld
import Verif.Props.ChangedLimits

/-!
# Examples and counterexamples for C36, C37
-/

namespace Vrpy

open Spec

/-! ## A world that computes -/

/-- The path in a graph that consists of one route. -/
noncomputable def pathOf (es : List (Node × Node)) : List Node :=
  let p := followEdges es es.length .source
  if p = routeOf (interior p) ∧ p.Nodup ∧ (∀ e ∈ es, e ∈ consecutive p) ∧ (∀ e ∈ consecutive p, e ∈ es) then p
  else exSomePath es

theorem pathOf_ok {es : List (Node × Node)} {p : List Node} (h : IsShortestPath es p) : IsShortestPath es (pathOf es) := by
  unfold pathOf
  simp only
  split
  · rename_i hp
    obtain ⟨h1, h2, h3, h4⟩ := hp
    generalize followEdges es es.length .source = q at *
    rw [h1] at h2 h3 h4
    exact (shortest_iff (L := interior q) h2 (fun e => ⟨h3 e, h4 e⟩) _).2 h1
  · unfold exSomePath
    rw [dif_pos ⟨p, h⟩]
    exact Exists.choose_spec ⟨p, h⟩

/-- The first one or two variables that can be 1 with all others 0. -/
def firstChoice (prob : LP MVar) : Option (List MVar) :=
  let xs := prob.vars.map (fun d => d.var)
  (xs.map (fun x => [x]) ++ xs.flatMap (fun x => xs.map (fun y => [x, y]))).find? (fun l =>
    decide ((∀ d ∈ prob.vars, d.Holds (fun y => if y ∈ l then 1 else 0)) ∧
      ∀ c ∈ prob.constrs, c.Holds (fun y => if y ∈ l then 1 else 0)))

/-- A solver that tries points with one or two variables at 1. -/
def firstSolver (prob : LP MVar) : Master.Answer :=
  { optimal := (firstChoice prob).isSome, point := fun y => if y ∈ (firstChoice prob).getD [] then 1 else 0,
    visitDual := fun _ => 0, fleetDual := fun _ => 0, spanDual := fun _ => 0 }

theorem firstSolver_sound : MasterSolverSound firstSolver := by
  intro prob h
  cases hc : firstChoice prob with
  | none => simp [firstSolver, hc] at h
  | some l =>
    have := List.find?_some hc
    refine feasible_of _ _ ?_
    simp only [firstSolver, hc, Option.getD_some]
    exact of_decide_eq_true this

/-- No labels are found, so that the first columns are all there is. -/
noncomputable def againWorld : World where
  master := fun _ => firstSolver
  pricing := fun _ _ => { objective := none, infeasible := true, point := fun _ => 0 }
  cspy := fun _ _ _ _ => none
  paths := fun _ => exPathsOracle
  rand := fun _ _ _ => 0
  negCycle := fun _ _ => true
  timeUp := fun _ => false
  clock := fun _ => { runtime := 0, root := fun _ _ => 1 }
  pick := fun _ => 0
  solvable := fun _ _ => true
  dist := fun _ _ _ => 5
  cw := fun _ => { order := id, path := fun r => pathOf r.edges }
  path := fun c => pathOf c.edges
  schedule := fun _ => (false, fun _ => 0)

theorem againWorld_ok : WorldOk againWorld where
  cw := fun _ => ⟨fun _ => List.Perm.refl _, fun r h => pathOf_ok h.choose_spec⟩
  cspy := fun _ _ _ _ _ _ h => (by cases h)
  master := fun _ => firstSolver_sound
  paths := fun _ => exPathsOracle_ok
  path := fun c p h => pathOf_ok h

/-- What a call presents, computed. -/
def presented (w : World) (a : SolveArgs) (fuel : Nat) (o : Obj) : Option Presented :=
  match o.P.startSolve w.dist a.strategy a.cspy a.initialRoutes a.preassignments with
  | .error _ => none
  | .ok P =>
    match P.initialize P.G.toNet w.cw fuel with
    | .ok (some (P', cols)) => some ⟨P'.solveCfg a w.falsy, cols, P'.numVehiclesSchedule⟩
    | _ => none

theorem presents_of {w : World} {a : SolveArgs} {fuel : Nat} {o : Obj} {x : Presented} (h : presented w a fuel o = some x) :
    Presents w a fuel o x := by
  unfold presented at h
  split at h
  · cases h
  · rename_i P hP
    split at h
    · rename_i P' cols hi
      cases h
      exact ⟨P, P', hP, hi, rfl, rfl⟩
    · cases h

/-- The object after the constructor and one call. -/
def solvedOnce (w : World) (a : SolveArgs) (fuel : Nat) (P : Vrp) : Option (Obj × Obj) :=
  match Obj.create P with
  | .error _ => none
  | .ok o =>
    match o.solve w a fuel with
    | .ok (some o1) => some (o, o1)
    | _ => none

theorem solvedOnce_ok {w : World} {a : SolveArgs} {fuel : Nat} {P : Vrp} {o o1 : Obj}
    (h : solvedOnce w a fuel P = some (o, o1)) : Obj.create P = .ok o ∧ o.solve w a fuel = .ok (some o1) := by
  unfold solvedOnce at h
  split at h
  · cases h
  · rename_i o' ho
    split at h
    · rename_i o1' hs
      simp only [Option.some.injEq, Prod.mk.injEq] at h
      obtain ⟨rfl, rfl⟩ := h
      exact ⟨ho, hs⟩
    · cases h

/-- The example without fixed costs. -/
def exAgain : Vrp := { exPlan with fixedCost := .one 0, numStops := .none }

/-- A property of the two objects, tested. -/
theorem solvedOnce_test {w : World} {a : SolveArgs} {fuel : Nat} {P : Vrp} (p : Obj → Obj → Bool)
    (h : (solvedOnce w a fuel P).map (fun q => p q.1 q.2) = some true) :
    ∃ o o1, Obj.create P = .ok o ∧ o.solve w a fuel = .ok (some o1) ∧ p o o1 = true := by
  cases hs : solvedOnce w a fuel P with
  | none => rw [hs] at h; cases h
  | some q =>
    rw [hs] at h
    exact ⟨q.1, q.2, (solvedOnce_ok hs).1, (solvedOnce_ok hs).2, by simpa using h⟩

/-- Both calls present a problem, and the test holds. -/
def bothPresent (x y : Option Presented) (p : Presented → Presented → Bool) : Bool :=
  match x, y with
  | some x, some y => p x y
  | _, _ => false

theorem bothPresent_ok {x y : Option Presented} {p : Presented → Presented → Bool} (h : bothPresent x y p = true) :
    ∃ x' y', x = some x' ∧ y = some y' ∧ p x' y' = true := by
  unfold bothPresent at h
  split at h
  · exact ⟨_, _, rfl, rfl, h⟩
  · cases h

theorem presented_test {w : World} {a b : SolveArgs} {fuel : Nat} {P : Vrp} (p : Presented → Presented → Bool)
    (h : (solvedOnce w a fuel P).map (fun q => bothPresent (presented w a fuel q.1) (presented w b fuel q.2) p) = some true) :
    ∃ o o1 x y, Obj.create P = .ok o ∧ o.solve w a fuel = .ok (some o1) ∧ Presents w a fuel o x ∧ Presents w b fuel o1 y ∧
      p x y = true := by
  obtain ⟨o, o1, h1, h2, h3⟩ := solvedOnce_test (fun o o1 => bothPresent (presented w a fuel o) (presented w b fuel o1) p) h
  obtain ⟨x, y, hx, hy, hp⟩ := bothPresent_ok h3
  exact ⟨o, o1, x, y, h1, h2, presents_of hx, presents_of hy, hp⟩

/-- Such problems exist. -/
theorem exAgain_repeatable : Repeatable exAgain where
  wf := exPlan_capacitated.wf
  customer := exPlan_capacitated.customer
  costs := exPlan_capacitated.costs
  demand := exPlan_capacitated.demand
  timeWindows := rfl
  fixedCost := Or.inl rfl
  fleet := Or.inl rfl

/-- The hypotheses of the C36 theorems hold for a run of the example without initial routes: the first call finds columns with
Clarke & Wright and greedy, and the second call presents the same problem. -/
example : ∃ o o1 x y, Obj.create exAgain = .ok o ∧ o.solve againWorld {} 10 = .ok (some o1) ∧
    Calls (fun b => b.preassignments = []) o o1 ∧ Presents againWorld {} 10 o x ∧ Presents againWorld {} 10 o1 y ∧
    x.cols ≠ [] ∧ y = x := by
  obtain ⟨o, o1, x, y, h1, h2, h3, h4, h5⟩ := presented_test (w := againWorld) (a := {}) (b := {}) (fuel := 10) (P := exAgain)
    (fun x _ => decide (x.cols ≠ [])) (by decide +kernel)
  have h5' : x.cols ≠ [] := of_decide_eq_true h5
  exact ⟨o, o1, x, y, h1, h2, .step _ _ _ (.refl _) rfl h2, h3, h4, h5',
    C36_columns_kept_partial exAgain_repeatable ⟨rfl, rfl⟩ rfl h1 rfl h3 h5' h2 (.refl _) h4⟩

/-- **C36 fails with fixed costs**: they are added to the arcs out of Source in every call.  In the example the way to the
first customer costs 10 and a vehicle 3; the second call works with 16 instead of 13. -/
theorem C36_fixed_costs_counterexample : WorldOk againWorld ∧ ∃ o o1 x y, Obj.create exPlan = .ok o ∧
    o.solve againWorld {} 10 = .ok (some o1) ∧ Presents againWorld {} 10 o x ∧ Presents againWorld {} 10 o1 y ∧
    x.cfg.M.G.cost .source (.cust 1) = [13] ∧ y.cfg.M.G.cost .source (.cust 1) = [16] := by
  obtain ⟨o, o1, x, y, h1, h2, h3, h4, h5⟩ := presented_test (w := againWorld) (a := {}) (b := {}) (fuel := 10) (P := exPlan)
    (fun x y => decide (x.cfg.M.G.cost .source (.cust 1) = [13] ∧ y.cfg.M.G.cost .source (.cust 1) = [16]))
    (by decide +kernel)
  exact ⟨againWorld_ok, o, o1, x, y, h1, h2, h3, h4, of_decide_eq_true h5⟩

/-- A periodic problem with two vehicles. -/
def exPeriodic : Vrp := { exAgain with periodic := some 2 }

/-- **C36 fails for periodic problems with a bounded fleet**: the first call moves the bound to the scheduling problem, the
second one finds none. -/
theorem C36_periodic_counterexample : WorldOk againWorld ∧ ∃ o o1 x y, Obj.create exPeriodic = .ok o ∧
    o.solve againWorld {} 10 = .ok (some o1) ∧ Presents againWorld {} 10 o x ∧ Presents againWorld {} 10 o1 y ∧
    x.schedule = [2] ∧ y.schedule = [] := by
  obtain ⟨o, o1, x, y, h1, h2, h3, h4, h5⟩ := presented_test (w := againWorld) (a := {}) (b := {}) (fuel := 10)
    (P := exPeriodic) (fun x y => decide (x.schedule = [2] ∧ y.schedule = [])) (by decide +kernel)
  exact ⟨againWorld_ok, o, o1, x, y, h1, h2, h3, h4, of_decide_eq_true h5⟩

/-- Two customers, named before the depots; customer 2 closes at 8, driving takes 5. -/
def exAgainWindows : Vrp where
  G := {
    nodes := [.cust 1, .cust 2, .source, .sink]
    nd := fun v => if v = .cust 2 then { upper := some 8 } else { upper := some 100 }
    succ := fun u => match u with
      | .source => [.cust 1, .cust 2]
      | .cust 1 => [.cust 2, .sink]
      | .cust 2 => [.cust 1, .sink]
      | _ => []
    ed := fun u v => { cost := some (.scalar 1), time := some 5 } }
  timeWindows := true

/-- **C36 fails with time windows**: the first arc examined is compared with the windows as given, and the windows are
tightened only then; the second call starts with the tightened windows, and removes an arc that the first call kept. -/
theorem C36_time_windows_counterexample : WorldOk againWorld ∧ ∃ o o1 x y, Obj.create exAgainWindows = .ok o ∧
    o.solve againWorld {} 10 = .ok (some o1) ∧ Presents againWorld {} 10 o x ∧ Presents againWorld {} 10 o1 y ∧
    Node.cust 2 ∈ x.cfg.M.G.succ (.cust 1) ∧ Node.cust 2 ∉ y.cfg.M.G.succ (.cust 1) := by
  obtain ⟨o, o1, x, y, h1, h2, h3, h4, h5⟩ := presented_test (w := againWorld) (a := {}) (b := {}) (fuel := 10)
    (P := exAgainWindows) (fun x y => decide (Node.cust 2 ∈ x.cfg.M.G.succ (.cust 1) ∧ Node.cust 2 ∉ y.cfg.M.G.succ (.cust 1)))
    (by decide +kernel)
  exact ⟨againWorld_ok, o, o1, x, y, h1, h2, h3, h4, of_decide_eq_true h5⟩

/-- The second call raises the error. -/
def raises (x : Py (Option Obj)) (e : PyErr) : Bool :=
  match x with
  | .error e' => e' = e
  | .ok _ => false

theorem raises_ok {x : Py (Option Obj)} {e : PyErr} (h : raises x e = true) : x = .error e := by
  unfold raises at h
  split at h
  · rw [of_decide_eq_true h]
  · cases h

/-- A locked route. -/
def lockArgs : SolveArgs := { preassignments := [routeOf [.cust 1]] }

/-- **C36 fails with preassignments**: the locked route is taken out of the graph by the first call, and the second call with
the same arguments complains that it is not there. -/
theorem C36_preassignments_counterexample : WorldOk againWorld ∧ ∃ o o1, Obj.create exAgain = .ok o ∧
    o.solve againWorld lockArgs 10 = .ok (some o1) ∧ o1.solve againWorld lockArgs 10 = .error .valueError ∧
    o1.solve againWorld {} 10 = .error .valueError := by
  obtain ⟨o, o1, h1, h2, h3⟩ := solvedOnce_test (w := againWorld) (a := lockArgs) (fuel := 10) (P := exAgain)
    (fun _ o1 => raises (o1.solve againWorld lockArgs 10) .valueError && raises (o1.solve againWorld {} 10) .valueError)
    (by decide +kernel)
  simp only [Bool.and_eq_true] at h3
  exact ⟨againWorld_ok, o, o1, h1, h2, raises_ok h3.1, raises_ok h3.2⟩

/-! ## Changed limits -/

/-- Assignments to the limits. -/
def Obj.setLimits (o : Obj) (numStops : PyVal) (loadCapacity : Arg PyVal) (duration : PyVal) : Obj :=
  { o with P := { o.P with
    numStops := numStops
    loadCapacity := loadCapacity
    duration := duration } }

/-- The solution found, if any. -/
def solutionOf (x : Py (Option Obj)) : Option Solution :=
  match x with
  | .ok (some o) => some o.solution
  | _ => none

theorem solutionOf_ok {x : Py (Option Obj)} {S : Solution} (h : solutionOf x = some S) : ∃ o, x = .ok (some o) ∧ o.solution = S := by
  unfold solutionOf at h
  split at h
  · cases h
    exact ⟨_, rfl, rfl⟩
  · cases h

/-- **C37 fails for `num_stops`**: the first call finds the route over both customers; then `num_stops = 1` is set, and the
second call returns the same route. -/
theorem C37_num_stops_counterexample : WorldOk againWorld ∧ Capacitated exAgain ∧ ∃ o o1 o2, Obj.create exAgain = .ok o ∧
    o.solve againWorld {} 10 = .ok (some o1) ∧
    (o1.setLimits (.int 1) o1.P.loadCapacity o1.P.duration).solve againWorld {} 10 = .ok (some o2) ∧
    o2.solution.routes = [(1, routeOf [.cust 1, .cust 2])] := by
  obtain ⟨o, o1, h1, h2, h3⟩ := solvedOnce_test (w := againWorld) (a := {}) (fuel := 10) (P := exAgain)
    (fun _ o1 => decide (solutionOf ((o1.setLimits (.int 1) o1.P.loadCapacity o1.P.duration).solve againWorld {} 10) =
      some ⟨[(1, routeOf [.cust 1, .cust 2])], [(1, 0)], []⟩)) (by decide +kernel)
  obtain ⟨o2, h4, h5⟩ := solutionOf_ok (of_decide_eq_true h3)
  refine ⟨againWorld_ok, ?_, o, o1, o2, h1, h2, h4, by rw [h5]⟩
  obtain ⟨⟨k1, k2, k3, k4, k5, k6, k7, k8, k9⟩, k10⟩ := exPlan_capacitated
  exact ⟨⟨k1, k2, k3, k4, k5, k6, k7, k8, k9⟩, k10⟩

/-- Every arc takes 5. -/
def exTimed : Vrp := { exAgain with G := { exAgain.G with ed := fun u v => { exAgain.G.ed u v with time := some 5 } } }

/-- **C37 fails for `duration`**: the route over both customers takes 15; after `duration = 12` is set the second call returns it
all the same, although the round trips take 10 only. -/
theorem C37_duration_counterexample : WorldOk againWorld ∧ ∃ o o1 o2, Obj.create exTimed = .ok o ∧
    o.solve againWorld {} 10 = .ok (some o1) ∧
    (o1.setLimits o1.P.numStops o1.P.loadCapacity (.int 12)).solve againWorld {} 10 = .ok (some o2) ∧
    o2.solution.routes = [(1, routeOf [.cust 1, .cust 2])] ∧
    (∀ v ∈ [Node.cust 1, .cust 2], legSum (fun u v => (exTimed.G.ed u v).time.getD 0) (routeOf [v]) ≤ 12) ∧
    legSum (fun u v => (exTimed.G.ed u v).time.getD 0) (routeOf [.cust 1, .cust 2]) = 15 := by
  obtain ⟨o, o1, h1, h2, h3⟩ := solvedOnce_test (w := againWorld) (a := {}) (fuel := 10) (P := exTimed)
    (fun _ o1 => decide (solutionOf ((o1.setLimits o1.P.numStops o1.P.loadCapacity (.int 12)).solve againWorld {} 10) =
      some ⟨[(1, routeOf [.cust 1, .cust 2])], [(1, 0)], []⟩)) (by decide +kernel)
  obtain ⟨o2, h4, h5⟩ := solutionOf_ok (of_decide_eq_true h3)
  exact ⟨againWorld_ok, o, o1, o2, h1, h2, h4, by rw [h5], by decide +kernel, by decide +kernel⟩

/-- **C37 fails for a raised `load_capacity`**, in the other direction: the arcs that the first call removed
because of capacity 3 stay away, so that with capacity 4 the route over both customers (load 4) still cannot be found.  The
number of stops that the first call derived from capacity 3 stays too. -/
theorem C37_raised_capacity_counterexample : WorldOk againWorld ∧ ∃ o o1 x, Obj.create { exAgain with loadCapacity := .one (.int 3) } = .ok o ∧
    o.solve againWorld {} 10 = .ok (some o1) ∧ o.P.numStops = .none ∧
    Presents againWorld {} 10 (o1.setLimits o1.P.numStops (.one (.int 4)) o1.P.duration) x ∧
    x.cfg.caps = [4] ∧ x.cfg.numStops = some 3 ∧ Node.cust 2 ∉ x.cfg.M.G.succ (.cust 1) := by
  obtain ⟨o, o1, h1, h2, h3⟩ := solvedOnce_test (w := againWorld) (a := {}) (fuel := 10)
    (P := { exAgain with loadCapacity := .one (.int 3) })
    (fun o o1 => bothPresent (presented againWorld {} 10 (o1.setLimits o1.P.numStops (.one (.int 4)) o1.P.duration))
      (presented againWorld {} 10 (o1.setLimits o1.P.numStops (.one (.int 4)) o1.P.duration))
      (fun x _ => decide (o.P.numStops = .none ∧ x.cfg.caps = [4] ∧ x.cfg.numStops = some 3 ∧
        Node.cust 2 ∉ x.cfg.M.G.succ (.cust 1))))
    (by decide +kernel)
  obtain ⟨x, _, hx, _, hp⟩ := bothPresent_ok h3
  obtain ⟨p1, p2⟩ := of_decide_eq_true hp
  exact ⟨againWorld_ok, o, o1, x, h1, h2, p1, presents_of hx, p2⟩

/-- All hypotheses of `C37_changed_limits_partial` hold for the example: with `load_capacity = 3` set after the first call
(and round trips as initial routes) the second call returns two routes, where the first returned one. -/
example : WorldOk againWorld ∧ ∃ o o1 o2, Obj.create exAgain = .ok o ∧ o.solve againWorld {} 10 = .ok (some o1) ∧
    o1.solution.routes = [(1, routeOf [.cust 1, .cust 2])] ∧
    Changes o (o1.setLimits (.int 1) (.one (.int 3)) .none) ∧
    (∀ r ∈ exArgs.initialRoutes, r.Nodup ∧ WithinStops (some 1) (stops r).length) ∧
    (o1.setLimits (.int 1) (.one (.int 3)) .none).solve againWorld exArgs 10 = .ok (some o2) ∧
    o2.solution.routes = [(1, routeOf [.cust 1]), (2, routeOf [.cust 2])] := by
  obtain ⟨o, o1, h1, h2, h3⟩ := solvedOnce_test (w := againWorld) (a := {}) (fuel := 10) (P := exAgain)
    (fun _ o1 => decide (o1.solution.routes = [(1, routeOf [.cust 1, .cust 2])] ∧ o1.P.mixedFleet = false ∧
      solutionOf ((o1.setLimits (.int 1) (.one (.int 3)) .none).solve againWorld exArgs 10) =
      some ⟨[(1, routeOf [.cust 1]), (2, routeOf [.cust 2])], [(1, 0), (2, 0)], []⟩)) (by decide +kernel)
  obtain ⟨h3, hm, h4⟩ := of_decide_eq_true h3
  obtain ⟨o2, h5, h6⟩ := solutionOf_ok h4
  refine ⟨againWorld_ok, o, o1, o2, h1, h2, h3, .set _ _ _ (.call _ _ _ (.refl _) rfl h2) (fun hf => ?_), ?_, h5, by rw [h6]⟩
  · rw [hm] at hf
    cases hf
  · intro r hr
    have : ∀ r ∈ exArgs.initialRoutes, r.Nodup ∧ (stops r).length ≤ 1 := by decide +kernel
    refine ⟨(this r hr).1, ?_⟩
    intro m hm _
    cases hm
    exact (this r hr).2

/-- The same world, where the shortest paths are the round trips. -/
noncomputable def hyperWorld : World := { againWorld with paths := fun _ _ _ _ => [routeOf [.cust 1], routeOf [.cust 2]] }

/-- **C43 fails for a second call**: with the hyper-heuristic, `solve()` returns once and raises `TypeError` the second time
(the iteration counter is not reset, so that the new hyper-heuristic is never initialised). -/
theorem C43_second_call_counterexample : ∃ o o1, Obj.create exAgain = .ok o ∧
    o.solve hyperWorld { strategy := "Hyper" } 10 = .ok (some o1) ∧
    o1.solve hyperWorld { strategy := "Hyper" } 10 = .error .typeError := by
  obtain ⟨o, o1, h1, h2, h3⟩ := solvedOnce_test (w := hyperWorld) (a := { strategy := "Hyper" }) (fuel := 10) (P := exAgain)
    (fun _ o1 => raises (o1.solve hyperWorld { strategy := "Hyper" } 10) .typeError) (by decide +kernel)
  exact ⟨o, o1, h1, h2, raises_ok h3⟩

end Vrpy
