import Verif.Props.DiveChoice

/-!
# C75: examples and counterexample
-/

namespace Vrpy

open Spec

namespace Solve

/-- The master problem of `Master.C53_twice_counterexample`; pricing finds nothing. -/
def exDiveEnv : Env where
  master := fun _ P =>
    { optimal := true
      point := if P.constrs.length > 3 then Master.exTwo else Master.exHalf
      visitDual := fun _ => 0
      fleetDual := fun _ => 0
      spanDual := fun _ => 0 }
  pricing := fun _ _ => { objective := none, infeasible := true, point := fun _ => 0 }
  cspy := fun _ _ _ _ => none
  paths := fun _ _ _ _ => []
  rand := fun _ _ _ => 0
  negCycle := fun _ _ => true
  timeUp := fun _ => false
  clock := fun _ => { runtime := 0, root := fun _ _ => 1 }
  pick := fun _ => 0
  solvable := fun _ _ => true

def exDiveCfg : SolveCfg :=
  { M := { G := Master.exTri }, keys := [.cust 1, .cust 2, .cust 3], pricing := .fixed .exact }

def exDiveStart : SolveState :=
  { cols := Master.exSmall, mcols := Master.exSmall, dive := { tabu := [.y (.num 4)] } }

/-- A run whose dive fixes the route through customers 2 and 3, the one through 1 and 2 having been tried in an earlier run. -/
example : Inv exDiveStart ∧ exDiveStart.fixed = [] ∧ exDiveStart.dive.depth = 0 ∧
    (match run exDiveCfg exDiveEnv true [] 5 exDiveStart with
      | .ok (some (st, f)) => some (st.fixed, st.dive.tabu, f.graphs.map Column.name)
      | _ => none) = some ([.y (.num 5)], [.y (.num 4), .y (.num 5)], [.num 4, .num 5]) :=
  ⟨⟨fun i c hc => by
    match i with
    | 0 | 1 | 2 | 3 | 4 | 5 => simp [exDiveStart, Master.exSmall] at hc; subst hc; rfl
    | i + 6 => simp [exDiveStart, Master.exSmall] at hc, rfl⟩, rfl, rfl, by decide +kernel⟩

end Solve

namespace Master

/-- The same route for three vehicle types that cost the same. -/
def exSame : List Column :=
  [exCol 1 [.cust 1, .cust 2, .cust 3], { exCol 2 [.cust 1, .cust 2, .cust 3] with vehicleType := 1 },
   { exCol 3 [.cust 1, .cust 2, .cust 3] with vehicleType := 2 }]

/-- A tenth of the first one. -/
def exTenth : MVar → ℚ
  | .y (.num 1) => 1 / 10
  | .y (.num 2) => 9 / 20
  | .y (.num 3) => 9 / 20
  | _ => 0

/-- **C75**, counterexample: the variable is not rounded to the integer it is near to; a tenth of a route is fixed to 1, being nearer to 0 than the
others are to any integer (`vrpy/restricted_master_heuristics.py:58-62`). -/
theorem C75_rounding_counterexample :
    let M : Master := { G := exTri }
    (M.lp exSame true).Optimal exTenth ∧
      runDive (M.allVars exSame) {} exTenth (fun _ => true) =
        .ok (some (.y (.num 1)), { depth := 1, level := 1, tabu := [.y (.num 1)] }) ∧
      exTenth (.y (.num 1)) = 1 / 10 := by
  refine ⟨⟨feasible_of _ _ (by decide +kernel), ?_⟩, by decide +kernel, rfl⟩
  intro x hx
  have hobj : (({ G := exTri } : Master).lp exSame true).obj = [(2, .y (.num 1)), (2, .y (.num 2)), (2, .y (.num 3))] := by
    decide +kernel
  have h1 := hx.constrs (visitConstr { G := exTri } exSame true (.cust 1)) (by
    simp only [lp, List.append_assoc, List.mem_append, List.mem_map]
    exact Or.inl ⟨.cust 1, by decide, rfl⟩)
  have e1 : (visitConstr { G := exTri } exSame true (.cust 1)) = ⟨[(1, .y (.num 1)), (1, .y (.num 2)), (1, .y (.num 3))], .ge, 1⟩ := by rfl
  rw [e1] at h1
  have e2 : exTenth (.y (.num 1)) = 1 / 10 ∧ exTenth (.y (.num 2)) = 9 / 20 ∧ exTenth (.y (.num 3)) = 9 / 20 := ⟨rfl, rfl, rfl⟩
  rw [hobj]
  simp only [Constr.Holds, eval_cons, eval_nil, e2.1, e2.2.1, e2.2.2] at h1 ⊢
  linarith

end Master

end Vrpy
