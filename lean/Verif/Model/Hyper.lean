import Verif.Model.Basic
import Mathlib.Data.List.Sort

/-!
# The hyper-heuristic (`vrpy/hyper_heuristic.py`)

Modelled with the parameters of its only use, `_HyperHeuristic()` (`vrpy/vrp.py:240`): performance measure
`"weighted_average"`, acceptance type `"objective_decrease"` (which does nothing).  Scores are exact rationals; `sqrt` and
`log` (lines 317-320) and the clock are oracles.
-/

namespace Vrpy

/-- `heuristic_options` (`vrpy/hyper_heuristic.py:48`). -/
inductive Heur where
  | bestPaths
  | bestEdges1
  | bestEdges2
  | exact
deriving DecidableEq, Repr

namespace Heur

/-- In the order of the list `heuristic_options`. -/
def all : List Heur := [bestPaths, bestEdges1, bestEdges2, exact]

end Heur

/-- `d[h] = x`. -/
def updateAt {α : Type} (f : Heur → α) (h : Heur) (x : α) : Heur → α := fun h' => if h' = h then x else f h'

/-- The dictionary of `get_heuristic_distribution` (`vrpy/master_solve_pulp.py:149-165`). -/
structure Active where
  count : Heur → Nat
  other : Nat

/-- `sum(self.active_columns.values())`. -/
def Active.total (a : Active) : Nat := (Heur.all.map a.count).sum + a.other

/-- The attributes of `_HyperHeuristic` that are used (`vrpy/hyper_heuristic.py:57-105`).  `current` and `objective` are
`none` before `init`; `timed` tells whether `end_time` is set. -/
structure Hyper where
  theta : ℚ := 1
  current : Option Heur := none
  objective : Option ℚ := none
  timed : Bool := false
  decreased : Bool := false
  produced : Bool := false
  iterations : Heur → Nat := fun _ => 0
  added : Heur → Nat := fun _ => 0
  exp : Heur → ℚ := fun _ => 0
  points : Heur → ℚ := fun _ => 10000000000
  objDecrease : Heur → ℚ := fun _ => 0
  normObj : Heur → ℚ := fun _ => 0
  normRuntime : Heur → ℚ := fun _ => 0
  lastRuntime : Heur → ℚ := fun _ => 0
  runtimes : List ℚ := []
  totalDecrease : ℚ := 0
  active : Active := ⟨fun _ => 0, 0⟩

namespace Hyper

/-- The default of `step` (`vrpy/hyper_heuristic.py:52`). -/
def step : ℚ := 1 / 10

/-- `self.inf` (`vrpy/hyper_heuristic.py:67`). -/
def inf : ℚ := 10000000000

/-- `init` (`vrpy/hyper_heuristic.py:107-111`). -/
def init (s : Hyper) (cost : ℚ) : Hyper := { s with current := some .bestPaths, objective := some cost, timed := true }

/-- The best heuristics (`vrpy/hyper_heuristic.py:127-128`). -/
def best (s : Hyper) : List Heur := Heur.all.filter (fun h => ∀ h' ∈ Heur.all, s.points h' ≤ s.points h)

/-- `pick_heuristic` (`vrpy/hyper_heuristic.py:117-133`); `i` is the random index. -/
def pick (s : Hyper) (i : Nat) : Heur × Hyper :=
  let h := (s.best[i % s.best.length]?).getD .bestPaths
  (h, { s with current := some h })

/-- `update_scaling_factor` (`vrpy/hyper_heuristic.py:152-155`). -/
def newTheta (s : Hyper) : ℚ := if s.decreased && s.produced then 99 / 100 else max (s.theta - step) step

/-- The external values an update depends on: the measured runtime and `sqrt(2 * log(m) / n)`. -/
structure Clock where
  runtime : ℚ
  root : Nat → Nat → ℚ

/-- The normalised runtime (`vrpy/hyper_heuristic.py:274-279`): `bisect` on a sorted list. -/
def runtimeRank (dist : List ℚ) (x : ℚ) : ℚ := ((dist.length : ℚ) - (dist.filter (fun y => y ≤ x)).length) / dist.length

/-- `current_performance` with `_current_performance_wgtavr` (`vrpy/hyper_heuristic.py:157-184`, `:233-238`, `:258-284`): `TypeError` if
the clock was never started, `KeyError` if there is no current heuristic. -/
def performance (s : Hyper) (c : Clock) (obj : ℚ) (produced : Bool) (active : Active) : Py Hyper :=
  if !s.timed then .error .typeError
  else
    match s.current, s.objective with
    | none, _ => .error .keyError
    | some _, none => .error .typeError
    | some h, some old =>
      let its := updateAt s.iterations h (s.iterations h + 1)
      let dec := updateAt s.objDecrease h (s.objDecrease h + max (old - obj) 0)
      let tot := s.totalDecrease + max (old - obj) 0
      let dist := s.runtimes.orderedInsert (· ≤ ·) c.runtime
      let last := updateAt s.lastRuntime h c.runtime
      .ok { s with
        iterations := its
        added := if produced then updateAt s.added h (s.added h + 1) else s.added
        produced := produced
        decreased := decide (old - obj > 0)
        active := active
        runtimes := dist
        lastRuntime := last
        objDecrease := dec
        totalDecrease := tot
        exp := fun h' => if its h' > 0 then c.root ((Heur.all.map its).sum) (its h') else s.exp h'
        normRuntime := fun h' => if its h' > 0 then runtimeRank dist (last h') else s.normRuntime h'
        normObj := fun h' => if its h' > 0 ∧ tot > 0 then dec h' / tot else s.normObj h'
        objective := some obj }

/-- The share of the exploration term (`vrpy/hyper_heuristic.py:332-334`). -/
def spread (s : Hyper) (h : Heur) : ℚ :=
  let sum := (Heur.all.map s.exp).sum
  if sum = 0 then 0 else s.exp h / sum

/-- `self.q[heuristic]` (`vrpy/hyper_heuristic.py:335-340`). -/
def quality (s : Hyper) (h : Heur) : ℚ :=
  1 / 2 * s.active.count h / s.active.total + 1 / 10 * s.normRuntime h + 1 / 20 * s.normObj h +
    1 / 20 * s.active.count h / s.added h

/-- The new score (`vrpy/hyper_heuristic.py:341-343`). -/
def score (s : Hyper) (h : Heur) : ℚ := s.theta * s.quality h + 3 / 10 * s.spread h * (1 - s.theta)

/-- `update_parameters` with `_update_params_wgtavr` (`vrpy/hyper_heuristic.py:220-231`, `:322-343`): `ZeroDivisionError` if
no column is active, or a heuristic that was used has added no column. -/
def updateParameters (s : Hyper) : Py Hyper :=
  let s := { s with theta := s.newTheta }
  if ∃ h ∈ Heur.all, s.iterations h > 0 ∧ (s.active.total = 0 ∨ s.added h = 0) then .error .zeroDivisionError
  else .ok { s with points := fun h => if s.iterations h > 0 then s.score h else s.points h }

/-- `_update_hyper_heuristic` (`vrpy/vrp.py:752-760`). -/
def update (s : Hyper) (c : Clock) (obj : ℚ) (produced : Bool) (active : Active) : Py Hyper :=
  match s.performance c obj produced active with
  | .error e => .error e
  | .ok s => s.updateParameters

end Hyper

end Vrpy
