import Verif.Props.EndToEndBoundLockedRequests

/-!
# A case for C70 with a preassigned route, pickup and delivery

Of the two requests of `exTransport` the one from 2 to 4 is preassigned.
-/

namespace Vrpy

open Spec

def besideNet : Net :=
  { transportNet with
    nodes := [.source, .cust 1, .cust 3, .sink]
    succ := fun u => match u with
      | .source => [.cust 1, .cust 3, .sink]
      | .cust 1 => [.cust 3, .sink]
      | .cust 3 => [.sink]
      | _ => [] }

def besideDual (v : Node) : ℚ := if v = .cust 1 then 11 else if v = .cust 3 then 10 else 0

/-- The pricing problem. -/
def besidePricing : PricingLP :=
  { transportPricing with
    G := besideNet
    weight := fun u v => (besideNet.cost u v).getD 0 0 - besideDual u }

/-- The trip for the other request is optimal. -/
def besidePoint : PVar → ℚ
  | .x .source (.cust 1) => 1
  | .x (.cust 1) (.cust 3) => 1
  | .x (.cust 3) .sink => 1
  | .t (.cust 1) => 15
  | .t (.cust 3) => 25
  | .t .sink => 35
  | .y (.cust 1) => 1
  | .y (.cust 3) => 2
  | .y .sink => 3
  | .load (.cust 1) => 2
  | _ => 0

theorem besidePoint_optimal : (besidePricing.lp 5).Optimal besidePoint := by
  have hf : (besidePricing.lp 5).Feasible besidePoint := feasible_of _ _ (by decide +kernel)
  refine ⟨hf, fun y hy => ?_⟩
  have h0 : (besidePricing.lp 5).obj.eval besidePoint = 0 := by decide +kernel
  rw [h0]
  have hpos : ∀ u v, (u, v) ∈ besideNet.edges → 0 ≤ y (.x u v) := by
    intro u v huv
    have := hy.vars { var := .x u v, lo := some 0, up := some 1, isInt := true } (by
      show _ ∈ besidePricing.flowVars ++ _ ++ _ ++ _ ++ _
      simp only [List.mem_append]
      exact Or.inl (Or.inl (Or.inl (Or.inl (List.mem_map.2 ⟨(u, v), huv, rfl⟩)))))
    exact this.1 0 rfl
  have hflow := hy.constrs ⟨[(1, .x .source (.cust 1)), (-1, .x (.cust 1) (.cust 3)), (-1, .x (.cust 1) .sink)], .eq, 0⟩
    (by decide +kernel)
  simp only [Constr.Holds, LinExpr.eval] at hflow
  have hobj : (besidePricing.lp 5).obj = [(10, .x .source (.cust 1)), (10, .x .source (.cust 3)), (0, .x .source .sink),
      (-10, .x (.cust 1) (.cust 3)), (-1, .x (.cust 1) .sink), (0, .x (.cust 3) .sink)] := by decide +kernel
  rw [hobj]
  have p1 := hpos .source (.cust 3) (by decide)
  have p2 := hpos (.cust 1) .sink (by decide)
  simp only [LinExpr.eval, List.map_cons, List.map_nil, List.sum_cons, List.sum_nil] at hflow ⊢
  linarith

theorem besideSolver_ok : SolverExact (knownSolver [(besidePricing.lp 5, besidePoint)]) :=
  (knownSolver_ok (by
    intro k hk
    simp only [List.mem_cons, List.not_mem_nil, or_false] at hk
    subst hk
    exact besidePoint_optimal)).1

noncomputable def besideWorld : World :=
  { lpWorld [choosing [1]] (fun _ => besideDual) [] with
    pricing := fun _ => knownSolver [(besidePricing.lp 5, besidePoint)] }

def besideArgs : SolveArgs where
  initialRoutes := [routeOf [.cust 1, .cust 3]]
  preassignments := [routeOf [.cust 2, .cust 4]]
  strategy := "Exact"
  cspy := false

abbrev besidePlan : Vrp := withoutNodes exTransport [.cust 2, .cust 4]

theorem beside_arcs {m n : Nat} (h : Node.cust n ∈ besidePlan.G.succ (.cust m)) : m = 1 ∧ n = 3 := by
  obtain ⟨h1, h2, h3⟩ := mem_removeNodes_user.1 h
  have := exTransport_arcs h1
  simp only [List.mem_cons, Prod.mk.injEq, List.not_mem_nil, or_false] at this
  rcases this with ⟨rfl, rfl⟩ | ⟨rfl, rfl⟩ | ⟨rfl, rfl⟩ | ⟨rfl, rfl⟩ | ⟨rfl, rfl⟩ <;> simp_all

theorem beside_times : TimesMakeSense besidePlan where
  service := by decide +kernel
  from_source := by
    intro m n h
    obtain ⟨rfl, rfl⟩ := beside_arcs h
    decide +kernel
  to_sink := by
    intro m n h
    obtain ⟨rfl, rfl⟩ := beside_arcs h
    decide +kernel
  start := by decide +kernel
  home := by decide +kernel

theorem beside_wide : WindowsWide besidePlan := by
  have hn : ∀ n, Node.cust n ∈ besidePlan.G.nodes → n = 1 ∨ n = 3 := by
    intro n hn
    have : besidePlan.G.nodes = [.source, .cust 1, .cust 3, .sink] := by decide
    rw [this] at hn
    simpa using hn
  refine ⟨by decide +kernel, ?_, by decide +kernel, by decide +kernel, ?_, ?_⟩
  · intro n h
    rcases hn n h with rfl | rfl
    · show ∀ p ∈ userArrivals besidePlan.G (userLower besidePlan.G .source) .source [.cust 1, .sink], _
      decide +kernel
    · show ∀ p ∈ userArrivals besidePlan.G (userLower besidePlan.G .source) .source [.cust 3, .sink], _
      decide +kernel
  · intro n h _
    right
    rcases hn n h with rfl | rfl <;> decide +kernel
  · intro m n h
    obtain ⟨rfl, rfl⟩ := beside_arcs h
    decide +kernel

theorem exTransport_nonnegative : NonnegativeData exTransport where
  service := by decide +kernel
  time := fun _ _ _ => by simp [exTransport]
  cost := by
    intro k u v _
    simp only [userArcCost, exTransport, userCost, userFixedCost]
    have h : ∀ x : ℚ, (x = 1 ∨ x = 10 ∨ x = 0) → 0 ≤ x := by
      rintro x (rfl | rfl | rfl) <;> norm_num
    refine ite_nonneg' (add_nonneg (h _ ?_) (h _ ?_)) (ite_nonneg' (le_refl _) (add_nonneg (by norm_num) (h _ ?_)))
    all_goals (repeat' split) <;> simp

/-- All hypotheses of `C70_locked_requests_partial` hold for the example: no plan for the request from 1 to 3 costs less than 21. -/
example : ∃ K, ∀ S, TransportsWithin besidePlan K S → 21 ≤ (userCosts exTransport S).sum + 1 / 1000 * S.routes.length := by
  have hok : onTheWay besideWorld besideArgs 5 exTransport dualsProve = true := by decide +kernel
  have hleft : leftBehind besideWorld besideArgs 5 exTransport = some ([21], 0, 1) := by decide +kernel
  unfold leftBehind at hleft
  split at hleft
  · cases hleft
  rename_i o ho
  split at hleft
  · rename_i o' hsolve
    simp only [Option.some.injEq, Prod.mk.injEq] at hleft
    obtain ⟨K, bound, _, hb, hS⟩ := C70_locked_requests_partial (a := besideArgs) (L := [.cust 2, .cust 4]) (fun _ => besideSolver_ok)
      exTransport_ok exTransport_nonnegative
      (by
        intro v
        simp only [besideArgs, List.mem_cons, List.not_mem_nil, or_false, exists_eq_left]
        constructor
        · rintro (rfl | rfl)
          · exact ⟨⟨2, rfl⟩, ⟨rfl, rfl⟩, by decide⟩
          · exact ⟨⟨4, rfl⟩, ⟨rfl, rfl⟩, by decide⟩
        · rintro ⟨⟨n, rfl⟩, _, hv⟩
          simpa [routeOf] using hv)
      ⟨1, by decide, by decide⟩
      (by
        intro v w hvw
        rcases exTransport_request hvw with ⟨rfl, rfl⟩ | ⟨rfl, rfl⟩ <;> simp)
      (fun _ => ⟨beside_times, beside_wide⟩) (le_refl _) rfl rfl rfl (by decide) ho (by
        intro P' P'' fuel cols m stm h1 h2 ht _
        exact dualsProve_ok (onTheWay_ok hok ho h1 h2 ht)) hsolve (Or.inl ⟨rfl, by rw [hleft.2.1]; decide⟩) (Or.inl rfl) (fun _ => rfl)
    rw [hleft.1] at hb
    simp only [List.getLast?_singleton, Option.some.injEq] at hb
    subst hb
    refine ⟨K, fun S hSol => ?_⟩
    have := hS S hSol (fun hf => (by cases hf))
    have hp : exTransport.dropPenalty = 0 := rfl
    rw [hp] at this
    linarith
  · cases hleft

end Vrpy
