import Verif.Model.Schedule
import Verif.SpecSchedule
import Verif.Proofs.Master

/-!
# Feasible points of the scheduling problem, and the schedules read from them
-/

namespace Vrpy

open Spec

namespace Schedule

theorem addRoute_day (day : Dict Nat (List Nat)) (rt : Nat × Nat) (t : Nat) :
    (dget (addRoute day rt) t).getD [] = (dget day t).getD [] ++ (if rt.2 = t then [rt.1] else []) := by
  unfold addRoute
  cases h : dget day rt.2 with
  | none =>
    simp only [dget_dset]
    by_cases ht : t = rt.2
    · subst ht; simp [h]
    · rw [if_neg ht, if_neg (Ne.symm ht)]; simp
  | some l =>
    simp only [dget_dset]
    by_cases ht : t = rt.2
    · subst ht; simp [h]
    · rw [if_neg ht, if_neg (Ne.symm ht)]; simp

theorem fold_day (l : List (Nat × Nat)) (d : Dict Nat (List Nat)) (t : Nat) :
    (dget (l.foldl addRoute d) t).getD [] = (dget d t).getD [] ++ (l.filter (fun rt => rt.2 = t)).map Prod.fst := by
  induction l generalizing d with
  | nil => simp
  | cons a l ih =>
    rw [List.foldl_cons, ih, addRoute_day, List.filter_cons]
    by_cases h : a.2 = t <;> simp [h]

theorem addRoute_keys (day : Dict Nat (List Nat)) (rt : Nat × Nat) :
    (addRoute day rt).map Prod.fst = if rt.2 ∈ day.map Prod.fst then day.map Prod.fst else day.map Prod.fst ++ [rt.2] := by
  unfold addRoute
  cases h : dget day rt.2 <;> simp only [dset_keys]

theorem fold_keys (l : List (Nat × Nat)) (d : Dict Nat (List Nat)) (hd : (d.map Prod.fst).Nodup) :
    ((l.foldl addRoute d).map Prod.fst).Nodup ∧
      ∀ t, t ∈ (l.foldl addRoute d).map Prod.fst ↔ t ∈ d.map Prod.fst ∨ t ∈ l.map Prod.snd := by
  induction l generalizing d with
  | nil => exact ⟨hd, by simp⟩
  | cons a l ih =>
    have hk := addRoute_keys d a
    have hd' : ((addRoute d a).map Prod.fst).Nodup := by
      rw [hk]; split
      · exact hd
      · rename_i hm
        rw [List.nodup_append]
        refine ⟨hd, by simp, ?_⟩
        intro x hx y hy
        rw [List.mem_singleton] at hy
        subst hy
        rintro rfl
        exact hm hx
    obtain ⟨h1, h2⟩ := ih _ hd'
    refine ⟨h1, fun t => ?_⟩
    rw [List.foldl_cons, h2 t, hk]
    split
    · rename_i hm
      rw [List.map_cons, List.mem_cons]
      constructor
      · rintro (h | h)
        · exact .inl h
        · exact .inr (.inr h)
      · rintro (h | h | h)
        · exact .inl h
        · subst h; exact .inl hm
        · exact .inr h
    · simp only [List.mem_append, List.map_cons, List.mem_cons, List.not_mem_nil, or_false, or_assoc]

variable {s : Schedule} {p : SVar → ℚ}

theorem pairs_day (s : Schedule) (p : SVar → ℚ) {t : Nat} (ht : t < s.timeSpan) :
    ((s.pairs.filter (fun rt => p (.y rt.1 rt.2) > 9 / 10)).filter (fun rt => rt.2 = t)).map Prod.fst =
      (s.routes.filter (fun r => p (.y r.1 t) > 9 / 10)).map Prod.fst := by
  have key : ∀ r : Nat × List Node, ((((List.range s.timeSpan).map (fun t => (r.1, t))).filter
      (fun rt => p (.y rt.1 rt.2) > 9 / 10)).filter (fun rt => rt.2 = t)).map Prod.fst =
      if p (.y r.1 t) > 9 / 10 then [r.1] else [] := by
    intro r
    rw [List.filter_filter, List.filter_map, List.map_map]
    have : (List.range s.timeSpan).filter ((fun a : Nat × Nat => decide (a.2 = t) && decide (p (.y a.1 a.2) > 9 / 10)) ∘
        (fun t => (r.1, t))) = if p (.y r.1 t) > 9 / 10 then [t] else [] := by
      have h1 : ∀ n, (List.range n).filter ((fun a : Nat × Nat => decide (a.2 = t) && decide (p (.y a.1 a.2) > 9 / 10)) ∘
        (fun t => (r.1, t))) = if t < n ∧ p (.y r.1 t) > 9 / 10 then [t] else [] := by
        intro n
        induction n with
        | zero => simp
        | succ n ih =>
          rw [List.range_succ, List.filter_append, ih]
          by_cases h : p (.y r.1 t) > 9 / 10
          · rcases lt_trichotomy t n with h' | h' | h'
            · have : n ≠ t := by omega
              simp [h, h', this, Nat.lt_succ_of_lt h']
            · subst h'; simp [h]
            · have h2 : n ≠ t := by omega
              have h3 : ¬ t < n := by omega
              have h4 : ¬ t < n + 1 := by omega
              simp [h2, h3, h4]
          · by_cases h' : n = t
            · subst h'; simp [h]
            · simp [h, h']
      rw [h1]; simp [ht]
    rw [this]
    split <;> simp
  unfold pairs
  induction s.routes with
  | nil => rfl
  | cons r rs ih =>
    rw [List.flatMap_cons, List.filter_append, List.filter_append, List.map_append, key, ih, List.filter_cons]
    by_cases h : p (.y r.1 t) > 9 / 10
    · rw [if_pos h, if_pos (by simpa using h)]; rfl
    · rw [if_neg h, if_neg (by simpa using h)]; rfl

/-- The routes of a day. -/
theorem routesPerDay_day (s : Schedule) (p : SVar → ℚ) {t : Nat} (ht : t < s.timeSpan) :
    (dget (s.routesPerDay true p) t).getD [] = (s.routes.filter (fun r => p (.y r.1 t) > 9 / 10)).map Prod.fst := by
  unfold routesPerDay
  rw [if_pos rfl, fold_day, pairs_day s p ht]
  simp [dget]

theorem routesPerDay_keys (s : Schedule) (p : SVar → ℚ) :
    ((s.routesPerDay true p).map Prod.fst).Nodup ∧ ∀ t ∈ (s.routesPerDay true p).map Prod.fst, t < s.timeSpan := by
  unfold routesPerDay
  rw [if_pos rfl]
  obtain ⟨h1, h2⟩ := fold_keys (s.pairs.filter (fun rt => p (.y rt.1 rt.2) > 9 / 10)) [] List.nodup_nil
  refine ⟨h1, fun t ht => ?_⟩
  rcases (h2 t).1 ht with h | h
  · simp at h
  · obtain ⟨rt, hm, rfl⟩ := List.mem_map.1 h
    have := (List.mem_filter.1 hm).1
    simp only [pairs, List.mem_flatMap, List.mem_map, List.mem_range] at this
    obtain ⟨r, _, t, hlt, rfl⟩ := this
    exact hlt

/-- Entries of the schedule. -/
theorem routesPerDay_entry {e : Nat × List Nat} (he : e ∈ s.routesPerDay true p) :
    e.1 < s.timeSpan ∧ e.2 = (s.routes.filter (fun r => p (.y r.1 e.1) > 9 / 10)).map Prod.fst := by
  obtain ⟨h1, h2⟩ := routesPerDay_keys s p
  have ht := h2 e.1 (List.mem_map_of_mem he)
  refine ⟨ht, ?_⟩
  have := routesPerDay_day s p ht
  rw [dget_of_mem h1 (show (e.1, e.2) ∈ _ from he)] at this
  simpa using this

/-! ### Feasible points -/

theorem y_zero_or_one (hf : s.lp.Feasible p) {r : Nat × List Node} (hr : r ∈ s.routes) {t : Nat} (ht : t < s.timeSpan) :
    p (.y r.1 t) = 0 ∨ p (.y r.1 t) = 1 := by
  have h := hf.vars { var := .y r.1 t, lo := some 0, up := some 1, isInt := true } (by
    simp only [lp, List.mem_append, List.mem_flatMap, List.mem_map]
    exact Or.inl ⟨r, hr, t, List.mem_range.2 ht, rfl⟩)
  exact Master.int_zero_or_one (h.1 0 rfl) (h.2.1 1 rfl) (h.2.2 rfl)

/-- A sum of variables counts the chosen ones. -/
theorem sum_chosen {α : Type} (l : List α) (x : α → ℚ) (h : ∀ a ∈ l, x a = 0 ∨ x a = 1) :
    (l.map x).sum = ((l.filter (fun a => x a > 9 / 10)).length : ℚ) := by
  induction l with
  | nil => simp
  | cons a l ih =>
    rw [List.map_cons, List.sum_cons, ih (fun b hb => h b (List.mem_cons_of_mem _ hb)), List.filter_cons]
    rcases h a List.mem_cons_self with h | h
    · rw [h]; norm_num
    · rw [h]; norm_num; ring

theorem load_bounds (hf : s.lp.Feasible p) {t : Nat} (ht : t < s.timeSpan) :
    ((Spec.dayLoad (s.routesPerDay true p) t : Nat) : ℚ) ≤ p .loadMax ∧
      p .loadMin ≤ ((Spec.dayLoad (s.routesPerDay true p) t : Nat) : ℚ) := by
  have e : (s.routes.map (fun r => p (.y r.1 t))).sum = ((Spec.dayLoad (s.routesPerDay true p) t : Nat) : ℚ) := by
    rw [sum_chosen _ _ (fun r hr => y_zero_or_one hf hr ht), Spec.dayLoad, routesPerDay_day s p ht, List.length_map]
  have h1 := hf.constrs ⟨s.dayLoad t ++ [(-1, .loadMax)], .le, 0⟩ (by
    simp only [lp, loadConstrs, List.mem_append, List.mem_map]
    exact Or.inl (Or.inl (Or.inl (Or.inl ⟨t, List.mem_range.2 ht, rfl⟩))))
  have h2 := hf.constrs ⟨s.dayLoad t ++ [(-1, .loadMin)], .ge, 0⟩ (by
    simp only [lp, loadConstrs, List.mem_append, List.mem_map]
    exact Or.inl (Or.inl (Or.inl (Or.inr ⟨t, List.mem_range.2 ht, rfl⟩))))
  simp only [Constr.Holds, eval_append, Schedule.dayLoad, eval_lpSum, List.map_map, eval_cons, eval_nil, Function.comp_def, e] at h1 h2
  constructor <;> linarith

theorem one_day (hf : s.lp.Feasible p) {r : Nat × List Node} (hr : r ∈ s.routes) :
    ((List.range s.timeSpan).filter (fun t => p (.y r.1 t) > 9 / 10)).length = 1 := by
  have h := hf.constrs (s.routeConstr r) (by
    simp only [lp, List.mem_append, List.mem_map]
    exact Or.inl (Or.inl (Or.inr ⟨r, hr, rfl⟩)))
  simp only [Constr.Holds, routeConstr, eval_lpSum, List.map_map, Function.comp_def] at h
  rw [sum_chosen _ _ (fun t ht => y_zero_or_one hf hr (List.mem_range.1 ht))] at h
  exact_mod_cast h

theorem visit_le (hf : s.lp.Feasible p) {t : Nat} (ht : t < s.timeSpan) {v : Node} (hv : v ∈ s.G.nodes)
    (hd : 0 < s.G.demand v) :
    ((s.routes.filter (fun r => p (.y r.1 t) > 9 / 10)).filter (fun r => v ∈ r.2)).length ≤ 1 := by
  have h := hf.constrs (s.visitConstr t v) (by
    simp only [lp, List.mem_append, List.mem_flatMap, List.mem_map]
    exact Or.inl (Or.inr ⟨t, List.mem_range.2 ht, v, List.mem_filter.2 ⟨hv, by simpa using hd⟩, rfl⟩))
  simp only [Constr.Holds, visitConstr, eval_lpSum, List.map_map, Function.comp_def] at h
  rw [sum_chosen _ _ (fun r hr => y_zero_or_one hf (List.mem_filter.1 hr).1 ht), List.filter_filter] at h
  rw [List.filter_filter]
  have h' : ((List.filter (fun a => decide (p (SVar.y a.1 t) > 9 / 10) && decide (v ∈ a.2)) s.routes).length) ≤ 1 := by
    exact_mod_cast h
  simpa only [Bool.and_comm] using h'

theorem fleet_le (hf : s.lp.Feasible p) {t : Nat} (ht : t < s.timeSpan) {k n : Nat} (hk : s.numVehicles[k]? = some n) :
    ((s.routes.filter (fun r => p (.y r.1 t) > 9 / 10)).filter (fun r => dget s.types r.1 = some k)).length ≤ n := by
  have h := hf.constrs (s.fleetConstr k n t) (by
    simp only [lp, List.mem_append, List.mem_flatten, List.mem_mapIdx]
    refine Or.inr ⟨_, ⟨k, (List.getElem?_eq_some_iff.1 hk).1, rfl⟩, ?_⟩
    rw [(List.getElem?_eq_some_iff.1 hk).2]
    exact List.mem_map.2 ⟨t, List.mem_range.2 ht, rfl⟩)
  simp only [Constr.Holds, fleetConstr, eval_lpSum, List.map_map, Function.comp_def] at h
  rw [sum_chosen _ _ (fun r hr => y_zero_or_one hf (List.mem_filter.1 hr).1 ht), List.filter_filter] at h
  rw [List.filter_filter]
  have h' : ((List.filter (fun a => decide (p (SVar.y a.1 t) > 9 / 10) && decide (dget s.types a.1 = some k)) s.routes).length) ≤ n := by
    exact_mod_cast h
  simpa only [Bool.and_comm] using h'

end Schedule

end Vrpy
