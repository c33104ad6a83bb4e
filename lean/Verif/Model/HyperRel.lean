import Verif.Model.Hyper

/-!
# The hyper-heuristic with the measure `"relative_improvement"` (`vrpy/hyper_heuristic.py`)

The other performance measure of `_HyperHeuristic`.  `vrpy` itself only builds `_HyperHeuristic()` (`vrpy/vrp.py:240`), which has
the measure of `Model/Hyper.lean`; this file has the methods as they behave for the second measure, and the three acceptance
types.  Scores are exact rationals; `sqrt`, `log`, `exp`, the clock and the random numbers are oracles.
-/

namespace Vrpy

/-- The attributes used with this measure (`vrpy/hyper_heuristic.py:57-105`), beyond those of `Hyper`: the parameters `start_computing_average`
and `scaling_factor`, and `iteration`, `average_runtime`, `last_runtime`, `d`, `d_max`, `q`, `r`.  `none` is `None`. -/
structure Rel where
  base : Hyper := {}
  start : Nat := 1
  scaling : ℚ := 1 / 2
  iteration : Option Nat := none
  average : Option ℚ := none
  last : Option ℚ := none
  d : ℚ := 0
  dMax : ℚ := 0
  q : Heur → ℚ := fun _ => 0
  r : Heur → ℚ := fun _ => 0

namespace Rel

/-- `init` (`vrpy/hyper_heuristic.py:107-111`). -/
def init (s : Rel) (cost : ℚ) : Rel := { s with base := s.base.init cost }

/-- `pick_heuristic` (`vrpy/hyper_heuristic.py:117-133`): `TypeError` if `iteration` is `None`; before the average is computed one of the first two heuristics is
returned, and `current_heuristic` is not set (line 123).  `i` is the random index. -/
def pick (s : Rel) (i : Nat) : Py (Heur × Rel) :=
  match s.iteration with
  | none => .error .typeError
  | some it =>
    if it < s.start then .ok (if i % 2 = 0 then .bestPaths else .bestEdges1, s)
    else .ok ((s.base.pick i).1, { s with base := (s.base.pick i).2 })

/-- The improvement of the runtime over the average, in percent (`vrpy/hyper_heuristic.py:243-246`). -/
def improvement (average last : ℚ) : ℚ := max ((average - last) / average * 100) 0

/-- `_current_performance_relimp` (`vrpy/hyper_heuristic.py:240-256`): `TypeError` if `iteration` or `average_runtime` is `None`,
`ZeroDivisionError` if the average is 0. -/
def relimp (s : Rel) (last : ℚ) : Py Rel :=
  match s.iteration with
  | none => .error .typeError
  | some it =>
    if it > s.start + 1 then
      match s.average with
      | none => .error .typeError
      | some a =>
        if a = 0 then .error .zeroDivisionError
        else if improvement a last > s.dMax then .ok { s with d := improvement a last, dMax := improvement a last }
        else .ok { s with d := 0 }
    else .ok s

/-- `current_performance` (`vrpy/hyper_heuristic.py:157-184`, `:233-238`). -/
def performance (s : Rel) (c : Hyper.Clock) (obj : ℚ) (produced : Bool) : Py Rel :=
  if !s.base.timed then .error .typeError
  else
    match s.base.current, s.base.objective with
    | none, _ => .error .keyError
    | some _, none => .error .typeError
    | some h, some old =>
      match relimp { s with
          base := { s.base with
            iterations := updateAt s.base.iterations h (s.base.iterations h + 1)
            added := if produced then updateAt s.base.added h (s.base.added h + 1) else s.base.added
            produced := produced
            decreased := decide (old - obj > 0)
            lastRuntime := updateAt s.base.lastRuntime h c.runtime }
          last := some c.runtime } c.runtime with
      | .error e => .error e
      | .ok s => .ok { s with base := { s.base with objective := some obj } }

/-- `reward` (`vrpy/hyper_heuristic.py:206-218`). -/
def reward (s : Rel) (y : ℚ) (stagnated : Bool) : ℚ :=
  let x := if stagnated then min (1 / 10 * s.dMax) y else y
  if s.base.decreased ∧ s.base.produced ∧ y > 0 then x * (3 / 2)
  else if y ≤ 0 then x
  else if s.base.decreased ∨ s.base.produced then x * (6 / 5)
  else x * (9 / 10)

/-- The new average of the runtimes (`vrpy/hyper_heuristic.py:290-297`): `TypeError` if the old one is `None`. -/
def newAverage (s : Rel) (it : Nat) : Py (Option ℚ) :=
  let n := (it - s.start) % 10
  if n = 0 then .ok s.last
  else
    match s.average, s.last with
    | some a, some l => .ok (some (a * ((n : ℚ) - 1) / n + 1 / n * l))
    | _, _ => .error .typeError

/-- The rest of `_update_params_relimp` (`vrpy/hyper_heuristic.py:298-315`): `KeyError` without a current heuristic,
`ZeroDivisionError` if it was never credited. -/
def newPoints (s : Rel) (c : Hyper.Clock) : Py Rel :=
  match s.base.current with
  | none => .error .keyError
  | some h =>
    if s.base.iterations h = 0 then .error .zeroDivisionError
    else
      let n : ℚ := s.base.iterations h
      let stagnated := decide (s.q h = 0) && decide (s.base.iterations h - 1 > 3)
      let rh := s.r h * (n - 1) / n + 1 / n * s.reward s.d stagnated
      let q := updateAt s.q h ((s.q h + rh) / n)
      let exp := fun x => if s.base.iterations x ≠ 0 then c.root ((Heur.all.map s.base.iterations).sum) (s.base.iterations x)
        else s.base.exp x
      .ok { s with
        r := updateAt s.r h rh
        q := q
        base := { s.base with
          exp := exp
          points := fun x => if s.base.iterations x ≠ 0 then s.base.theta * q x + s.scaling * exp x else s.base.points x } }

/-- `update_parameters` with `_update_params_relimp` (`vrpy/hyper_heuristic.py:220-231`, `:286-315`). -/
def updateParameters (s : Rel) (c : Hyper.Clock) (it : Nat) : Py Rel :=
  let s := { s with iteration := some it, base := { s.base with theta := s.base.newTheta } }
  if it ≤ s.start then .ok s
  else
    match s.newAverage it with
    | .error e => .error e
    | .ok a => newPoints { s with average := a } c

/-- `_update_hyper_heuristic` (`vrpy/vrp.py:752-760`) at iteration `it`. -/
def update (s : Rel) (c : Hyper.Clock) (obj : ℚ) (produced : Bool) (it : Nat) : Py Rel :=
  match s.performance c obj produced with
  | .error e => .error e
  | .ok s => s.updateParameters c it

/-- The acceptance types (`vrpy/hyper_heuristic.py:195-204`); the default `"objective_decrease"` is none of the three the method knows. -/
inductive Acceptance where
  | acceptAll
  | table
  | objectiveThreshold
  | other
deriving DecidableEq, Repr

/-- `move_acceptance` (`vrpy/hyper_heuristic.py:186-204`); `u` is the random number, `e` is `math.exp`. -/
def moveAcceptance (t : Acceptance) (e : ℚ → ℚ) (u : ℚ) (s : Rel) : Bool :=
  match t with
  | .acceptAll => true
  | .table => if s.base.decreased then true else decide (u < 1 / 2 * e s.d)
  | .objectiveThreshold => if s.base.decreased then true else decide (u < e s.d)
  | .other => true

end Rel

end Vrpy
