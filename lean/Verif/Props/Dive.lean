import Verif.Model.Dive
import Verif.Props.MasterCases

/-!
# C53: diving
-/

namespace Vrpy

open Spec

namespace Master

variable {M : Master} {cols : List Column} {p : MVar → ℚ}

theorem dive_feasible {fixed : List MVar} (h : (M.diveLP cols fixed).Feasible p) :
    (M.lp cols true).Feasible p ∧ ∀ x ∈ fixed, p x = 1 := by
  refine ⟨⟨h.vars, fun c hc => h.constrs c (List.mem_append_left _ hc)⟩, ?_⟩
  intro x hx
  have hm : ∀ c ∈ fixConstrs x, c.Holds p := fun c hc =>
    h.constrs c (List.mem_append_right _ (List.mem_flatMap.2 ⟨x, hx, hc⟩))
  have h1 := hm ⟨[(1, x)], .le, 1⟩ (by simp [fixConstrs])
  have h2 := hm ⟨[(1, x)], .ge, 1⟩ (by simp [fixConstrs])
  simp only [Constr.Holds, eval_cons, eval_nil, one_mul, add_zero] at h1 h2
  exact le_antisymm h1 h2

/-- **C53**, what is left of it: if the problem is not periodic and all columns are simple routes, the routes read off a
point of the diving problem visit every customer that is not dropped at least once.  What is missing: at most once is false
(`C53_twice_counterexample`, `C53_fractional_counterexample`), and so is even at least once if a column repeats customers
(`C53_missed_counterexample`; in a run started by `solve(dive=True)` no column does, see
`C53_dive_partial`). -/
theorem C53_covered_partial (hsimple : ∀ c ∈ cols, ∃ r, IsSimpleRoute M.G r ∧ Draws c r)
    {fixed : List MVar} (hf : (M.diveLP cols fixed).Feasible p) {path : Column → List Node}
    (hpath : ∀ c ∈ selected cols p, IsShortestPath c.edges (path c)) {v : Node} (hv : v ∈ M.G.customers)
    (hper : M.periodic = true → 0 < M.G.freq v ∧ M.G.freq v ≤ 1) (hd : v ∉ M.dropped p) : ∃ c ∈ selected cols p, v ∈ path c := by
  obtain ⟨hf, _⟩ := dive_feasible hf
  have h := hf.constrs (M.visitConstr cols true v) (by
    simp only [lp, List.append_assoc, List.mem_append, List.mem_map]
    exact Or.inl ⟨v, hv, rfl⟩)
  have hdum : v ∉ M.dummies := by
    intro hm
    unfold dummies at hm
    split at hm
    · rename_i hp
      have := (List.mem_filter.1 hm).2
      exact absurd (of_decide_eq_true this) (not_lt.2 (hper hp).2)
    · simp at hm
  have hpos : 0 < (if M.periodic then M.G.freq v else 1 : ℚ) := by
    split
    · rename_i hp
      exact (hper hp).1
    · norm_num
  have hdrop : LinExpr.eval (if v ∈ M.drops then [(1, MVar.drop v)] else []) p = 0 := by
    split
    · rename_i hm
      rcases drop_zero_or_one hf hm with e | e
      · simp [e]
      · exact absurd (mem_dropped.2 ⟨hm, by rw [e]; norm_num⟩) hd
    · rfl
  simp only [visitConstr, Constr.Holds, eval_append, eval_map, if_true, hdum, if_false, eval_nil, hdrop, add_zero] at h
  by_contra hno
  push Not at hno
  obtain ⟨_, hs, ht⟩ := mem_customers.1 hv
  have hz : (cols.map (fun c => ((c.visited M.globalSpan).count v : ℚ) * p (.y c.name))).sum ≤ 0 := by
    refine (List.sum_le_card_nsmul _ 0 ?_).trans (by simp)
    intro x hx
    obtain ⟨c, hc, rfl⟩ := List.mem_map.1 hx
    by_cases hpos : 0 < p (.y c.name)
    · have hsel := mem_selected.2 ⟨hc, hpos⟩
      obtain ⟨r, hr, hdr⟩ := hsimple c hc
      have h1 := hno c hsel
      rw [path_eq hr hdr (hpath c hsel)] at h1
      rw [visited_count hdr _ hs ht, List.count_eq_zero.2 h1]
      simp
    · exact mul_nonpos_of_nonneg_of_nonpos (by positivity) (not_lt.1 hpos)
  linarith

/-- The six columns of routes with at most two customers. -/
def exSmall : List Column :=
  [exCol 1 [.cust 1], exCol 2 [.cust 2], exCol 3 [.cust 3], exCol 4 [.cust 1, .cust 2], exCol 5 [.cust 2, .cust 3],
   exCol 6 [.cust 3, .cust 1]]

/-- Half of each pair. -/
def exHalf : MVar → ℚ
  | .y (.num 4) => 1 / 2
  | .y (.num 5) => 1 / 2
  | .y (.num 6) => 1 / 2
  | _ => 0

/-- The pairs (1,2) and (2,3). -/
def exTwo : MVar → ℚ
  | .y (.num 4) => 1
  | .y (.num 5) => 1
  | _ => 0

theorem exSmall_obj (x : MVar → ℚ) : (({ G := exTri } : Master).lp exSmall true).obj.eval x =
    2 * x (.y (.num 1)) + 2 * x (.y (.num 2)) + 2 * x (.y (.num 3)) + 2 * x (.y (.num 4)) + 2 * x (.y (.num 5)) +
      2 * x (.y (.num 6)) := by
  have : (({ G := exTri } : Master).lp exSmall true).obj = [(2, .y (.num 1)), (2, .y (.num 2)), (2, .y (.num 3)),
    (2, .y (.num 4)), (2, .y (.num 5)), (2, .y (.num 6))] := by decide +kernel
  rw [this]
  simp only [eval_cons, eval_nil]
  ring

theorem exSmall_point {x : MVar → ℚ} (hx : (({ G := exTri } : Master).lp exSmall true).Feasible x) :
    (1 ≤ x (.y (.num 1)) + x (.y (.num 4)) + x (.y (.num 6)) ∧ 1 ≤ x (.y (.num 2)) + x (.y (.num 4)) + x (.y (.num 5)) ∧
      1 ≤ x (.y (.num 3)) + x (.y (.num 5)) + x (.y (.num 6))) ∧
    (0 ≤ x (.y (.num 1)) ∧ 0 ≤ x (.y (.num 2)) ∧ 0 ≤ x (.y (.num 3)) ∧ 0 ≤ x (.y (.num 5)) ∧ 0 ≤ x (.y (.num 6))) := by
  have hv : ∀ v ∈ exTri.customers, (visitConstr { G := exTri } exSmall true v).Holds x := fun v hv =>
    hx.constrs _ (by
      simp only [lp, List.append_assoc, List.mem_append, List.mem_map]
      exact Or.inl ⟨v, hv, rfl⟩)
  have h0 : ∀ c ∈ exSmall, 0 ≤ x (.y c.name) := by
    intro c hc
    have := hx.vars { var := .y c.name, lo := some 0, up := some (if !true && isNon c.name then 0 else 1),
                      isInt := !true || false } (by
      simp only [lp, varDecls, List.append_assoc, List.mem_append, List.mem_map]
      exact Or.inl ⟨c, hc, rfl⟩)
    exact this.1 0 rfl
  have e1 : (visitConstr { G := exTri } exSmall true (.cust 1)) = ⟨[(1, .y (.num 1)), (0, .y (.num 2)), (0, .y (.num 3)),
    (1, .y (.num 4)), (0, .y (.num 5)), (1, .y (.num 6))], .ge, 1⟩ := by rfl
  have e2 : (visitConstr { G := exTri } exSmall true (.cust 2)) = ⟨[(0, .y (.num 1)), (1, .y (.num 2)), (0, .y (.num 3)),
    (1, .y (.num 4)), (1, .y (.num 5)), (0, .y (.num 6))], .ge, 1⟩ := by rfl
  have e3 : (visitConstr { G := exTri } exSmall true (.cust 3)) = ⟨[(0, .y (.num 1)), (0, .y (.num 2)), (1, .y (.num 3)),
    (0, .y (.num 4)), (1, .y (.num 5)), (1, .y (.num 6))], .ge, 1⟩ := by rfl
  have h1 := hv (.cust 1) (by decide)
  have h2 := hv (.cust 2) (by decide)
  have h3 := hv (.cust 3) (by decide)
  rw [e1] at h1
  rw [e2] at h2
  rw [e3] at h3
  simp only [Constr.Holds, eval_cons, eval_nil] at h1 h2 h3
  refine ⟨⟨by linarith, by linarith, by linarith⟩, ?_, ?_, ?_, ?_, ?_⟩
  · exact h0 (exCol 1 [.cust 1]) (by simp [exSmall])
  · exact h0 (exCol 2 [.cust 2]) (by simp [exSmall])
  · exact h0 (exCol 3 [.cust 3]) (by simp [exSmall])
  · exact h0 (exCol 5 [.cust 2, .cust 3]) (by simp [exSmall])
  · exact h0 (exCol 6 [.cust 3, .cust 1]) (by simp [exSmall])

/-- **C53**, counterexample: with all routes of at most two customers in the pool, the relaxed optimum takes half of each
pair; diving fixes the first pair to 1; an optimal point of the problem that is then solved and read off visits customer 2 twice. -/
theorem C53_twice_counterexample :
    let M : Master := { G := exTri }
    (M.lp exSmall true).Optimal exHalf ∧
      runDive (M.allVars exSmall) {} exHalf (fun _ => true) =
        .ok (some (.y (.num 4)), { depth := 1, level := 1, tabu := [.y (.num 4)] }) ∧
      (M.diveLP exSmall [.y (.num 4)]).Optimal exTwo ∧
      ((selected exSmall exTwo).map exPath).flatten.count (.cust 2) = 2 := by
  refine ⟨⟨feasible_of _ _ (by decide +kernel), ?_⟩, by decide +kernel, ⟨feasible_of _ _ (by decide +kernel), ?_⟩,
    by decide +kernel⟩
  · intro x hx
    rw [exSmall_obj, exSmall_obj]
    obtain ⟨⟨h1, h2, h3⟩, g1, g2, g3, g5, g6⟩ := exSmall_point hx
    have : 2 * exHalf (.y (.num 1)) + 2 * exHalf (.y (.num 2)) + 2 * exHalf (.y (.num 3)) + 2 * exHalf (.y (.num 4)) +
      2 * exHalf (.y (.num 5)) + 2 * exHalf (.y (.num 6)) = 3 := by decide +kernel
    rw [this]
    linarith
  · intro x hx
    obtain ⟨hx, hfix⟩ := dive_feasible hx
    have h4 := hfix (.y (.num 4)) (by simp)
    show ((({ G := exTri } : Master).lp exSmall true).obj).eval exTwo ≤
      ((({ G := exTri } : Master).lp exSmall true).obj).eval x
    rw [exSmall_obj, exSmall_obj]
    obtain ⟨⟨h1, h2, h3⟩, g1, g2, g3, g5, g6⟩ := exSmall_point hx
    have : 2 * exTwo (.y (.num 1)) + 2 * exTwo (.y (.num 2)) + 2 * exTwo (.y (.num 3)) + 2 * exTwo (.y (.num 4)) +
      2 * exTwo (.y (.num 5)) + 2 * exTwo (.y (.num 6)) = 4 := by decide +kernel
    rw [this]
    linarith

/-- **C53**, counterexample: if the names of the three variables are still in the list left by an earlier dive (of any problem in the
same process), or four variables have been fixed before, nothing is fixed, and three fractional routes are reported, each customer
being visited twice. -/
theorem C53_fractional_counterexample :
    let M : Master := { G := exTri }
    (M.lp exSmall true).Optimal exHalf ∧
      (∀ st : DiveState, (3 < st.depth ∨ st.tabu = [.y (.num 4), .y (.num 5), .y (.num 6)]) →
        runDive (M.allVars exSmall) st exHalf (fun _ => true) = .ok (none, st)) ∧
      (M.diveLP exSmall []).Feasible exHalf ∧
      ∀ v ∈ exTri.customers, ((selected exSmall exHalf).map exPath).flatten.count v = 2 := by
  refine ⟨C53_twice_counterexample.1, ?_, feasible_of _ _ (by decide +kernel), by decide +kernel⟩
  rintro ⟨dep, lev, tab⟩ (h | h)
  · simp [runDive, h]
  · simp only at h
    subst h
    have : varsToFix (({ G := exTri } : Master).allVars exSmall) [.y (.num 4), .y (.num 5), .y (.num 6)] exHalf = [] := by
      decide +kernel
    simp [runDive, this]

/-- **C53**, counterexample: with the column that goes round the triangle in the pool (cspy may find it), it alone is an optimal
solution of the relaxed problem, but the path read off its graph skips customers 2 and 3.  (`solve(dive=True)` sets
`_elementary`, so that such a column is not found there, `Solve.price_elementary`.) -/
theorem C53_missed_counterexample :
    let M : Master := { G := exTri }
    let p : MVar → ℚ := fun x => if x = .y (.nonElem 7) then 1 else 0
    (M.diveLP exPool []).Optimal p ∧
      runDive (M.allVars exPool) {} p (fun _ => true) = .ok (none, {}) ∧
      ∀ path, IsShortestPath exRound.edges path → path = [.source, .cust 1, .sink] := by
  refine ⟨⟨feasible_of _ _ (by decide +kernel), ?_⟩, by decide +kernel, ?_⟩
  · intro x hx
    obtain ⟨hx, _⟩ := dive_feasible hx
    have hobj : (({ G := exTri } : Master).diveLP exPool []).obj = [(2, .y (.num 1)), (2, .y (.num 2)), (2, .y (.num 3)),
      (2, .y (.num 4)), (2, .y (.num 5)), (2, .y (.num 6)), (2, .y (.nonElem 7))] := by decide +kernel
    have h2 := hx.constrs (visitConstr { G := exTri } exPool true (.cust 2)) (by
      simp only [lp, List.append_assoc, List.mem_append, List.mem_map]
      exact Or.inl ⟨.cust 2, by decide, rfl⟩)
    have e2 : (visitConstr { G := exTri } exPool true (.cust 2)) = ⟨[(0, .y (.num 1)), (1, .y (.num 2)), (0, .y (.num 3)),
      (1, .y (.num 4)), (1, .y (.num 5)), (0, .y (.num 6)), (1, .y (.nonElem 7))], .ge, 1⟩ := by rfl
    have h0 : ∀ c ∈ exPool, 0 ≤ x (.y c.name) := by
      intro c hc
      have := hx.vars { var := .y c.name, lo := some 0, up := some (if !true && isNon c.name then 0 else 1),
                        isInt := !true || false } (by
        simp only [lp, varDecls, List.append_assoc, List.mem_append, List.mem_map]
        exact Or.inl ⟨c, hc, rfl⟩)
      exact this.1 0 rfl
    rw [e2] at h2
    have g1 : 0 ≤ x (.y (.num 1)) := h0 (exCol 1 [.cust 1]) (by simp [exPool])
    have g3 : 0 ≤ x (.y (.num 3)) := h0 (exCol 3 [.cust 3]) (by simp [exPool])
    have g6 : 0 ≤ x (.y (.num 6)) := h0 (exCol 6 [.cust 3, .cust 1]) (by simp [exPool])
    rw [hobj]
    simp only [Constr.Holds, eval_cons, eval_nil] at h2 ⊢
    simp
    linarith
  rintro path ⟨⟨h1, h2, h3⟩, hmin⟩
  have hp : IsPathIn exRound.edges [.source, .cust 1, .sink] := ⟨rfl, rfl, by simp [Along, exRound]⟩
  have hlen := hmin _ hp
  match path with
  | [] => simp at h1
  | [a] => simp at h1 h2; rw [h1] at h2; cases h2
  | [a, b] =>
    simp at h1 h2; subst h1 h2
    simp [Along, exRound] at h3
  | [a, b, c] =>
    simp at h1 h2; subst h1 h2
    obtain ⟨hb, _⟩ := h3
    simp [exRound] at hb
    rw [hb]
  | a :: b :: c :: d :: rest => simp only [List.length_cons, List.length_nil] at hlen; omega

end Master

end Vrpy
