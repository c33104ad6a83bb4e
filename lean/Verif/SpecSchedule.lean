import Verif.Model.Reports

/-!
# Specification of schedules of periodic problems (C30, C31)

Written without reference to `Verif.Model.Schedule`.
-/

namespace Vrpy

namespace Spec

/-- The nodes visited by the numbered routes `rs`, with repetitions. -/
def visitsOf (routes : Dict Nat (List Node)) (rs : List Nat) : List Node := rs.flatMap (fun r => (dget routes r).getD [])

/-- The number of the routes `rs` that vehicles of type `k` drive. -/
def typeCount (types : Dict Nat Nat) (k : Nat) (rs : List Nat) : Nat := (rs.filter (fun r => dget types r = some k)).length

/-- A schedule (days with the routes driven) of `routes` over `span` days. -/
structure ValidSchedule (demand : Node → ℚ) (span : Nat) (routes : Dict Nat (List Node)) (types : Dict Nat Nat)
    (fleet : List Nat) (S : Dict Nat (List Nat)) : Prop where
  /-- No day is listed twice. -/
  days : (S.map Prod.fst).Nodup
  /-- Every day is in the horizon. -/
  horizon : ∀ e ∈ S, e.1 < span
  /-- Every route is driven exactly once, and only these routes are. -/
  each : (S.flatMap Prod.snd).Perm (routes.map Prod.fst)
  /-- No customer with demand is visited twice on a day. -/
  once : ∀ e ∈ S, ∀ v, 0 < demand v → (visitsOf routes e.2).count v ≤ 1
  /-- No day uses more vehicles than there are. -/
  fleet : ∀ e ∈ S, ∀ k n, fleet[k]? = some n → typeCount types k e.2 ≤ n

/-- The number of routes driven on a day. -/
def dayLoad (S : Dict Nat (List Nat)) (t : Nat) : Nat := ((dget S t).getD []).length

/-- `d` is the difference between the busiest and the least busy day. -/
def IsSpread (span : Nat) (S : Dict Nat (List Nat)) (d : Int) : Prop :=
  ∃ hi lo, hi < span ∧ lo < span ∧ (∀ t < span, dayLoad S t ≤ dayLoad S hi) ∧ (∀ t < span, dayLoad S lo ≤ dayLoad S t) ∧
    d = dayLoad S hi - dayLoad S lo

end Spec

end Vrpy
