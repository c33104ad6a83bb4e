import Verif.Model.Master
import Verif.Proofs.PricingVariants

/-!
# Feasible points of the master problem
-/

namespace Vrpy

open Spec

namespace Master

variable {M : Master} {cols : List Column} {p : MVar → ℚ}

theorem int_zero_or_one {q : ℚ} (h0 : 0 ≤ q) (h1 : q ≤ 1) (hi : ∃ z : Int, q = z) : q = 0 ∨ q = 1 := by
  obtain ⟨z, rfl⟩ := hi
  have a : 0 ≤ z := by exact_mod_cast h0
  have b : z ≤ 1 := by exact_mod_cast h1
  rcases (by omega : z = 0 ∨ z = 1) with rfl | rfl
  · left; simp
  · right; simp

/-- Route variables of the final problem are 0 or 1, and 0 for columns that repeat a customer. -/
theorem mip_y (hf : (M.lp cols false).Feasible p) {c : Column} (hc : c ∈ cols) :
    (p (.y c.name) = 0 ∨ p (.y c.name) = 1) ∧ (isNon c.name = true → p (.y c.name) = 0) := by
  have h := hf.vars { var := .y c.name, lo := some 0, up := some (if !false && isNon c.name then 0 else 1),
                      isInt := !false || M.globalSpan } (by
    simp only [lp, varDecls, List.append_assoc, List.mem_append, List.mem_map]
    exact Or.inl ⟨c, hc, rfl⟩)
  obtain ⟨h1, h2, h3⟩ := h
  have h1' := h1 0 rfl
  have h2' := h2 _ rfl
  simp only at h1' h2'
  have h3' := h3 (by simp)
  constructor
  · refine int_zero_or_one h1' (h2'.trans ?_) h3'
    split <;> norm_num
  · intro hn
    simp only [hn, Bool.not_false, Bool.and_self, if_true] at h2'
    exact le_antisymm h2' h1'

/-- Drop variables are 0 or 1. -/
theorem drop_zero_or_one {relax : Bool} (hf : (M.lp cols relax).Feasible p) {v : Node} (hv : v ∈ M.drops) :
    p (.drop v) = 0 ∨ p (.drop v) = 1 := by
  have h := hf.vars { var := .drop v, lo := some 0, up := some 1, isInt := true } (by
    simp only [lp, varDecls, List.append_assoc, List.mem_append, List.mem_map]
    exact Or.inr (Or.inl ⟨v, hv, rfl⟩))
  obtain ⟨h1, h2, h3⟩ := h
  exact int_zero_or_one (h1 0 rfl) (h2 1 rfl) (h3 rfl)

theorem dummy_nonneg {relax : Bool} (hf : (M.lp cols relax).Feasible p) {v : Node} (hv : v ∈ M.dummies) :
    0 ≤ p (.dummy v) := by
  have h := hf.vars { var := .dummy v, lo := some 0, isInt := !relax } (by
    simp only [lp, varDecls, List.append_assoc, List.mem_append, List.mem_map]
    exact Or.inr (Or.inr (Or.inl ⟨v, hv, rfl⟩)))
  exact h.1 0 rfl

/-- In the final problem no vehicles beyond the fleet are used. -/
theorem bound_zero (hf : (M.lp cols false).Feasible p) {k : Nat} (hk : k < M.numVehicles.length) :
    p (.bound k) = 0 := by
  have h := hf.vars { var := .bound k, lo := some 0, up := if false then none else some 0 } (by
    simp only [lp, varDecls, List.append_assoc, List.mem_append, List.mem_map]
    exact Or.inr (Or.inr (Or.inr (Or.inl ⟨k, List.mem_range.2 hk, rfl⟩))))
  exact le_antisymm (h.2.1 0 rfl) (h.1 0 rfl)

theorem sum_selected (a : Column → ℚ) (h : ∀ c ∈ cols, p (.y c.name) = 0 ∨ p (.y c.name) = 1) :
    (cols.map (fun c => a c * p (.y c.name))).sum = ((selected cols p).map a).sum := by
  induction cols with
  | nil => rfl
  | cons c cols ih =>
    have ih' := ih (fun c hc => h c (List.mem_cons_of_mem _ hc))
    rcases h c List.mem_cons_self with hc | hc
    · simp only [List.map_cons, List.sum_cons, hc, mul_zero, zero_add, ih', selected, List.filter_cons]
      simp
    · simp only [List.map_cons, List.sum_cons, hc, mul_one, ih', selected, List.filter_cons]
      simp

/-- The covering equation of the final problem, in terms of the selected columns. -/
theorem visit_eq (hf : (M.lp cols false).Feasible p) {v : Node} (hv : v ∈ M.G.customers) :
    ((selected cols p).map (fun c => ((c.visited M.globalSpan).count v : ℚ))).sum +
      (if v ∈ M.drops then p (.drop v) else 0) + (if v ∈ M.dummies then p (.dummy v) else 0) =
      if M.periodic then M.G.freq v else 1 := by
  have h := hf.constrs (M.visitConstr cols false v) (by
    simp only [lp, List.append_assoc, List.mem_append, List.mem_map]
    exact Or.inl ⟨v, hv, rfl⟩)
  simp only [visitConstr, Constr.Holds, eval_append, eval_map, Bool.false_eq_true, if_false] at h
  rw [sum_selected _ (fun c hc => (mip_y hf hc).1)] at h
  rw [← h]
  congr 1
  · congr 1
    split <;> simp
  · split <;> simp

/-- The fleet constraint of the final problem, in terms of the selected columns. -/
theorem fleet_selected (hper : M.periodic = false) (hf : (M.lp cols false).Feasible p) {k n : Nat}
    (hk : M.numVehicles[k]? = some n) :
    ((selected cols p).filter (fun c => c.vehicleType = k)).length ≤ n ∧
      (M.useAllVehicles = true → ((selected cols p).filter (fun c => c.vehicleType = k)).length = n) := by
  obtain ⟨hlt, hn⟩ := List.getElem?_eq_some_iff.1 hk
  have h := hf.constrs (M.fleetConstr cols k n) (by
    simp only [lp, hper, Bool.false_eq_true, if_false, List.append_assoc, List.mem_append, List.mem_mapIdx]
    exact Or.inr (Or.inl ⟨k, hlt, by rw [hn]⟩))
  have hsum : LinExpr.eval ((cols.filter (fun c => c.vehicleType = k)).map (fun c => ((1 : ℚ), MVar.y c.name))) p =
      (((selected cols p).filter (fun c => c.vehicleType = k)).length : ℚ) := by
    rw [eval_map (x := p) (cols.filter (fun c => c.vehicleType = k)) (fun _ => 1) (fun c => MVar.y c.name)]
    rw [sum_selected (fun _ => 1) (fun c hc => (mip_y hf (List.mem_filter.1 hc).1).1)]
    simp only [selected, List.filter_filter, List.map_const', List.sum_replicate, nsmul_eq_mul, mul_one]
    simp only [Bool.and_comm]
  simp only [fleetConstr, Constr.Holds, eval_append, hsum, eval_cons, eval_nil, bound_zero hf hlt] at h
  by_cases hu : M.useAllVehicles = true
  · simp only [hu, if_true, mul_zero, add_zero] at h
    have : ((selected cols p).filter (fun c => c.vehicleType = k)).length = n := by exact_mod_cast h
    exact ⟨this.le, fun _ => this⟩
  · simp only [hu, Bool.false_eq_true, if_false, mul_zero, add_zero] at h
    exact ⟨by exact_mod_cast h, fun h => absurd h hu⟩

theorem mem_selected {c : Column} : c ∈ selected cols p ↔ c ∈ cols ∧ 0 < p (.y c.name) := by
  simp [selected]

theorem selected_not_non (hf : (M.lp cols false).Feasible p) {c : Column} (hc : c ∈ selected cols p) :
    isNon c.name = false := by
  obtain ⟨h1, h2⟩ := mem_selected.1 hc
  cases h : isNon c.name with
  | false => rfl
  | true => exact absurd ((mip_y hf h1).2 h) (ne_of_gt h2)

end Master

end Vrpy
