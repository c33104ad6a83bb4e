import Mathlib.Data.Rat.Defs
import Mathlib.Algebra.Order.Ring.Unbundled.Rat

/-!
# The time limit

`_time_limit` is the argument of `solve()`; `none` stands for `None`, and `0` counts as no limit.  Clock readings are rational
numbers: floating point is not modelled.
-/

namespace Vrpy

namespace TimeLimit

/-- `_get_time_remaining` (`vrpy/vrp.py:762-779`) at time `now`. -/
def remaining (limit : Option ℚ) (start now : ℚ) (mip : Bool) : Option ℚ :=
  match limit with
  | none => none
  | some l =>
    if l = 0 then none
    else if mip then some (max 5 (l - (now - start)))
    else if l - (now - start) > 0 then some (l - (now - start))
    else some 0

/-- The test after an iteration (`vrpy/vrp.py:535-538`); the clock is read twice.  (The first value is a `float` if it is not
`None`.) -/
def up (limit : Option ℚ) (start now now' : ℚ) : Bool :=
  (remaining limit start now false).isSome && decide (remaining limit start now' false = some 0)

/-- The time limit cspy is given (`vrpy/subproblem_cspy.py:252`): `time_limit - 0.5 if time_limit else None`. -/
def forCspy : Option ℚ → Option ℚ
  | none => none
  | some x => if x = 0 then none else some (x - 1 / 2)

/-- The test `time_limit and time_limit <= 0` of the pricing LP (`vrpy/subproblem_lp.py:30`), with which it gives up. -/
def lpGivesUp : Option ℚ → Bool
  | none => false
  | some x => decide (x ≠ 0) && decide (x ≤ 0)

end TimeLimit

end Vrpy
