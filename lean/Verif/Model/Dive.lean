import Verif.Model.Master
import Mathlib.Algebra.Order.Round

/-!
# Diving (`vrpy/restricted_master_heuristics.py`, `vrpy/master_solve_pulp.py:65-69`)
-/

namespace Vrpy

namespace Master

/-- The state of `_DivingHeuristic` (`vrpy/restricted_master_heuristics.py:25-30`): `depth`, the number of ancestors of
`current_node`, and `tabu_list`.  All nodes share one list, the default argument of `_LPNode` (line 95), which is never
cleared: it also survives from one `VehicleRoutingProblem` to the next. -/
structure DiveState where
  depth : Nat := 0
  level : Nat := 0
  tabu : List MVar := []
deriving DecidableEq, Repr

/-- `abs(var.varValue - round(var.varValue))` (`vrpy/restricted_master_heuristics.py:43`). -/
def fractionality (q : ℚ) : ℚ := |q - round q|

/-- `vars_to_fix` (`vrpy/restricted_master_heuristics.py:40-53`). -/
def varsToFix (vars : List MVar) (tabu : List MVar) (p : MVar → ℚ) : List MVar :=
  vars.filter (fun x => fractionality (p x) ≠ 0 ∧ x ∉ tabu)

/-- `min(vars_to_fix, key=...)` (`vrpy/restricted_master_heuristics.py:58-60`): the first minimum. -/
def leastFractional (p : MVar → ℚ) (x : MVar) (xs : List MVar) : MVar :=
  xs.foldl (fun b y => if fractionality (p y) < fractionality (p b) then y else b) x

/-- `run_dive` (`vrpy/restricted_master_heuristics.py:32-91`); with `max_discrepancy = 1` its loop runs at most once.
`vars` is `relax.variables()` (sorted by name), `p` their values, `solvable x` tells whether the problem with `x` fixed to 1 is solved
to optimality (line 77).  Returns the variable fixed to 1 in the master problem, if any.  Backtracking from the first node replaces it by
an `LpProblem`, which has no `tabu_list` (lines 82 and 90). -/
def runDive (vars : List MVar) (st : DiveState) (p : MVar → ℚ) (solvable : MVar → Bool) : Py (Option MVar × DiveState) :=
  if 3 < st.depth then .ok (none, st)
  else
    match varsToFix vars st.tabu p with
    | [] => .ok (none, st)
    | x :: xs =>
      let y := leastFractional p x xs
      if solvable y then .ok (some y, { depth := st.depth + 1, level := st.level + 1, tabu := st.tabu ++ [y] })
      else
        match st.level with
        | 0 => .error .attributeError
        | l + 1 => .ok (none, { depth := st.depth + 1, level := l, tabu := st.tabu ++ [y] })

/-- The constraints `fix_..._LE`, `fix_..._GE` (`vrpy/restricted_master_heuristics.py:64-71`). -/
def fixConstrs (x : MVar) : List (Constr MVar) := [⟨[(1, x)], .le, 1⟩, ⟨[(1, x)], .ge, 1⟩]

/-- The master problem while diving, with the variables `fixed` fixed to 1; it is never made integer, covering constraints stay
inequalities (`vrpy/master_solve_pulp.py:65-69`, `vrpy/vrp.py:513-520`). -/
def diveLP (M : Master) (cols : List Column) (fixed : List MVar) : LP MVar :=
  let P := M.lp cols true
  { P with constrs := P.constrs ++ fixed.flatMap fixConstrs }

/-- The variables of the master problem, those of the routes first (`relax.variables()` is sorted by name; the order only matters for
ties). -/
def allVars (M : Master) (cols : List Column) : List MVar := (M.varDecls cols true).map (fun d => d.var)

end Master

end Vrpy
