import Verif.Model.Cspy

/-!
# The threshold of the search for elementary paths (`vrpy/subproblem_cspy.py`)

`Verif/Model/Cspy.lean` leaves the threshold out; here `solve` is modelled with it and with the statistics it is computed from.
-/

namespace Vrpy

/-- `_avg_path_len` and `_iters` as set by the constructor (`vrpy/subproblem_cspy.py:190-193`).  A new object is made for every
pricing problem (`vrpy/vrp.py:809-827`). -/
structure CspyStats where
  avgPathLen : ℚ := 1
  iters : Nat := 1
deriving DecidableEq, Repr

namespace CspyStats

/-- A new path with `n` nodes (`vrpy/subproblem_cspy.py:275-279`). -/
def update (s : CspyStats) (n : Nat) : CspyStats :=
  if n > 2 then { avgPathLen := s.avgPathLen + ((n : ℚ) - s.avgPathLen) / s.iters, iters := s.iters + 1 } else s

end CspyStats

namespace Cspy

/-- What cspy returns for given limits, a given value of `elementary` and a given `threshold`. -/
abbrev ThrOracle := Res → Bool → Option ℚ → Option (ℚ × List Node)

/-- The threshold (`vrpy/subproblem_cspy.py:235-242`): computed from all arcs of `G` (`full`), not of `sub_G`; `min` over no
arcs raises `ValueError`. -/
def threshold (q : Cspy) (full : Net) (s : CspyStats) (elementary : Bool) : Py (Option ℚ) :=
  if elementary then
    match full.edges.map (fun e => q.weight e.1 e.2) with
    | [] => .error .valueError
    | x :: xs => .ok (some (s.avgPathLen * xs.foldl min x))
  else .ok none

/-- The loop of `solve` (`vrpy/subproblem_cspy.py:234-289`), with the threshold. -/
def attemptsThr (q : Cspy) (full : Net) (keys : List Node) (oracle : Bool → Option ℚ → Option (ℚ × List Node))
    (cols : List Column) (s : CspyStats) : List Bool → Py (List Column × Bool × CspyStats)
  | [] => .ok (cols, false, s)
  | e :: es =>
    match q.threshold full s e with
    | .error err => .error err
    | .ok thr =>
      match oracle e thr with
      | none => .ok (cols, false, s)
      | some (c, path) =>
        if c < -(1 / 1000) then
          match q.createRoute keys cols.length path with
          | .error err => .error err
          | .ok col =>
            if cols.any (fun r => r.edges = col.edges) then attemptsThr q full keys oracle cols s es
            else .ok (cols ++ [col], true, s.update path.length)
        else .ok (cols, false, s)

/-- `solve` (`vrpy/subproblem_cspy.py:196-290`), with the threshold. -/
def solveThr (q : Cspy) (full : Net) (run : Bool) (keys : List Node) (oracle : ThrOracle) (cols : List Column) (s : CspyStats) :
    Py (List Column × Bool × CspyStats) :=
  if !run then .ok (cols, false, s)
  else
    match q.formulate with
    | .error e => .error e
    | .ok m => q.attemptsThr full keys (oracle m) cols s q.runs

end Cspy

end Vrpy
