import Verif.Props.EndToEndWindowsLP

/-!
# Worlds for examples: solvers that know a few points, and paths in columns
-/

namespace Vrpy

open Spec PricingLP

/-- Follow the edges from `u`. -/
def followEdges (es : List (Node × Node)) : Nat → Node → List Node
  | 0, u => [u]
  | n + 1, u =>
    match es.find? (fun e => e.1 = u) with
    | none => [u]
    | some e => u :: followEdges es n e.2

/-- The route of a column that consists of one route, otherwise some shortest path. -/
noncomputable def routePath (c : Column) : List Node :=
  let r := followEdges c.edges c.edges.length .source
  let mid := r.tail.dropLast
  if r = routeOf mid ∧ (routeOf mid).Nodup ∧ (∀ e ∈ c.edges, e ∈ consecutive (routeOf mid)) ∧
      ∀ e ∈ consecutive (routeOf mid), e ∈ c.edges then r
  else exSomePath c.edges

theorem routePath_ok (c : Column) (p : List Node) (h : IsShortestPath c.edges p) : IsShortestPath c.edges (routePath c) := by
  unfold routePath
  simp only
  split
  · rename_i hc
    rw [hc.1]
    exact (shortest_iff hc.2.1 (fun e => ⟨hc.2.2.1 e, hc.2.2.2 e⟩) _).2 rfl
  · unfold exSomePath
    rw [dif_pos ⟨p, h⟩]
    exact Exists.choose_spec ⟨p, h⟩

/-- Is the point feasible? -/
def feasiblePoint {α : Type} (prob : LP α) (pt : α → ℚ) : Bool :=
  decide ((∀ d ∈ prob.vars, d.Holds pt) ∧ ∀ c ∈ prob.constrs, c.Holds pt)

/-- A solver of master problems that knows some points and duals. -/
def masterOf (pts : List (MVar → ℚ)) (dual : LP MVar → Node → ℚ) (prob : LP MVar) : Master.Answer :=
  let pt := (pts.find? (feasiblePoint prob)).getD (fun _ => 0)
  { optimal := feasiblePoint prob pt, point := pt, visitDual := dual prob, fleetDual := fun _ => 0, spanDual := fun _ => 0 }

theorem masterOf_sound (pts : List (MVar → ℚ)) (dual : LP MVar → Node → ℚ) : MasterSolverSound (masterOf pts dual) := by
  intro prob h
  exact feasible_of _ _ (of_decide_eq_true h)

/-- A solver of pricing problems that knows some points. -/
def pricingOf (pts : List (PVar → ℚ)) (prob : LP PVar) : PricingLP.Answer :=
  match pts.find? (feasiblePoint prob) with
  | some pt => { objective := some (prob.obj.eval pt), infeasible := false, point := pt }
  | none => { objective := none, infeasible := true, point := fun _ => 0 }

theorem pricingOf_sound (pts : List (PVar → ℚ)) : SolverSound (pricingOf pts) := by
  intro prob z hz hi
  unfold pricingOf at hz hi ⊢
  split at hz
  · rename_i pt hpt
    simp only [Option.some.injEq] at hz
    exact ⟨feasible_of _ _ (of_decide_eq_true (by have := List.find?_some hpt; exact this)), hz⟩
  · cases hz

/-- The world with these solvers. -/
noncomputable def lpWorld (mpts : List (MVar → ℚ)) (dual : LP MVar → Node → ℚ) (ppts : List (PVar → ℚ)) : World :=
  { exWorld with
    master := fun _ => masterOf mpts dual
    pricing := fun _ => pricingOf ppts
    path := routePath }

theorem lpWorld_ok (mpts : List (MVar → ℚ)) (dual : LP MVar → Node → ℚ) (ppts : List (PVar → ℚ)) :
    LpSound (lpWorld mpts dual ppts) :=
  ⟨fun _ => masterOf_sound _ _, fun _ => pricingOf_sound _, exWorld_ok.paths, routePath_ok⟩

/-- The point that selects the columns with the given numbers and drops the given customers. -/
def choosing (cols : List Nat) (dropped : List Nat := []) : MVar → ℚ := fun x =>
  if (∃ i ∈ cols, x = .y (.num i)) ∨ ∃ n ∈ dropped, x = .drop (.cust n) then 1 else 0

end Vrpy
