import Verif.Proofs.LpRoutes

/-!
# Any path through the arcs of a feasible point of the pricing problem
-/

namespace Vrpy

open Spec

/-- A shortest path repeats no node. -/
theorem shortest_nodup {es : List (Node × Node)} {p : List Node} (h : IsShortestPath es p) : p.Nodup := by
  by_contra hn
  obtain ⟨v, hv⟩ := List.exists_duplicate_iff_not_nodup.2 hn
  obtain ⟨a, b, rfl, ha, hb⟩ := List.cons_sublist_iff.1 (List.duplicate_iff_sublist.1 hv)
  have hb' : v ∈ b := List.singleton_sublist.1 hb
  obtain ⟨a1, a2, rfl⟩ := List.append_of_mem ha
  obtain ⟨b1, b2, rfl⟩ := List.append_of_mem hb'
  obtain ⟨⟨h1, h2, h3⟩, hmin⟩ := h
  rw [along_iff] at h3
  have := hmin (a1 ++ v :: b2) ⟨?_, ?_, ?_⟩
  · simp at this
    omega
  · cases a1 with
    | nil => simpa using h1
    | cons x a1 => simpa using h1
  · simpa [List.getLast?_append, List.getLast?_cons] using h2
  · rw [along_iff]
    intro x y hxy
    apply h3
    rw [consecutive_append, List.mem_append] at hxy
    rcases hxy with hxy | hxy
    · rw [List.append_assoc, List.cons_append, consecutive_append]
      exact List.mem_append_left _ hxy
    · rw [← List.append_assoc, consecutive_append]
      exact List.mem_append_right _ hxy

/-- A shortest path is a simple path. -/
theorem shortest_connTo {es U : List (Node × Node)} {p : List Node} (hU : ∀ e, e ∈ es ↔ e ∈ U) (h : IsShortestPath es p) :
    ConnTo U .sink p :=
  ⟨h.1.1, h.1.2.1, shortest_nodup h, fun e he => (hU e).1 ((along_iff _ _).1 h.1.2.2 e.1 e.2 he)⟩

/-- A path has a shortest one beside it. -/
theorem exists_shortest {es : List (Node × Node)} {p : List Node} (h : IsPathIn es p) : ∃ q, IsShortestPath es q := by
  classical
  have hex : ∃ n, ∃ q, IsPathIn es q ∧ q.length = n := ⟨_, p, h, rfl⟩
  obtain ⟨q, hq, hn⟩ := Nat.find_spec hex
  exact ⟨q, hq, fun q' hq' => by rw [hn]; exact Nat.find_min' hex ⟨q', hq', rfl⟩⟩

namespace PricingLP

variable {q : PricingLP} {cap : ℚ} {p : PVar → ℚ} {mid : List Node}

/-- The limits hold for every simple path through the arcs of a feasible point. -/
theorem path_limits (hG : WellFormed q.G) (hd : q.G.demand .source = 0) (hs : q.G.service .sink = 0)
    (hcap : q.caps ≠ [] → q.caps[q.vehicleType]? = some cap) (h : (q.lp cap).Feasible p)
    (hp : ConnTo (q.chosen p) .sink (routeOf mid)) (hnd : (routeOf mid).Nodup) (hm1 : Node.source ∉ mid) (hm2 : Node.sink ∉ mid) :
    IsSimpleRoute q.G (routeOf mid) ∧ WithinStops q.numStops mid.length ∧
      ((∀ v ∈ q.G.nodes, 0 ≤ q.G.demand v) → WithinCapacity q.caps q.vehicleType (load q.G (routeOf mid))) ∧
      ((∀ u v, v ∈ q.G.succ u → 0 ≤ q.G.time u v + q.G.service u) → Within q.duration (Spec.duration q.G (routeOf mid))) ∧
      (q.timeWindows = true → OnTime q.G (routeOf mid)) := by
  obtain ⟨R, hr, hperm, _, _, hR⟩ := route_and_cycles_at hG h hp hnd hm1 hm2
  have hf := flowPoint h
  have hsum : ∀ f : Node × Node → ℚ, (∀ e ∈ R, 0 ≤ f e) →
      legSum (fun u v => f (u, v)) (routeOf mid) ≤ (q.G.edges.map (fun e => f e * p (.x e.1 e.2))).sum := by
    intro f h0
    rw [hf.binary.sum, (hperm.map f).sum_eq, List.map_append, List.sum_append, legSum_eq]
    have : 0 ≤ (R.map f).sum := by
      apply List.sum_nonneg
      intro x hx
      obtain ⟨e, he, rfl⟩ := List.mem_map.1 hx
      exact h0 e he
    linarith
  refine ⟨hr, ?_, ?_, ?_, ?_⟩
  · intro m hm hm0
    obtain ⟨n, rfl⟩ := Nat.exists_eq_succ_of_ne_zero hm0
    have := h.constrs (q.stopsConstr (n + 1)) (by simp [lp, hm])
    simp only [Constr.Holds, stopsConstr, eval_map] at this
    have h1 := hsum (fun _ => 1) (fun _ _ => by norm_num)
    rw [legSum_one] at h1
    have h2 : (mid.length : ℚ) ≤ (n + 1 : Nat) := by linarith
    exact_mod_cast h2
  · intro hdem hne
    refine ⟨cap, hcap hne, ?_⟩
    have := h.constrs (q.loadConstr cap) (by simp [lp, hne])
    simp only [Constr.Holds, loadConstr, eval_map] at this
    have h1 := hsum (fun e => q.G.demand e.2) (fun e he => hdem _ (hG.edge_mem _ _ (hR e he)).2)
    rw [routeOf, legSum_head] at h1
    simp only [load, routeOf, List.map_cons, List.sum_cons, hd, zero_add]
    linarith
  · intro htime d hd' hd0
    have := h.constrs (q.durationConstr d) (by
      have : active q.duration = some d := active_eq_some.2 ⟨hd', hd0⟩
      simp [lp, this])
    simp only [Constr.Holds, durationConstr, eval_map] at this
    have h1 := hsum (fun e => q.G.time e.1 e.2 + q.G.service e.1) (fun e he => htime _ _ (hR e he))
    rw [legSum_add (fun u v => q.G.time u v) (fun u _ => q.G.service u), legSum_tail] at h1
    have hdrop : (routeOf mid).dropLast = .source :: mid := by
      simp [routeOf, List.dropLast_cons_of_ne_nil]
    rw [hdrop] at h1
    simp only [Spec.duration, travel, routeOf, List.map_cons, List.sum_cons, List.map_append, List.sum_append,
      List.map_nil, List.sum_nil, hs] at h1 ⊢
    linarith
  · intro htw
    have hc : ∀ c ∈ q.timeConstrs, c.Holds p := by
      intro c hc
      apply h.constrs
      simp [lp, htw, hc]
    have hlow : ∀ v ∈ q.G.nodes, q.G.lower v ≤ p (.t v) ∧ p (.t v) ≤ q.G.upper v := by
      intro v hv
      have h1 := hc ⟨[(1, .t v)], .ge, q.G.lower v⟩ (by
        simp only [timeConstrs, List.mem_append]
        right
        exact List.mem_map.2 ⟨v, hv, rfl⟩)
      have h2 := hc ⟨[(1, .t v)], .le, q.G.upper v⟩ (by
        simp only [timeConstrs, List.mem_append]
        left; right
        exact List.mem_map.2 ⟨v, hv, rfl⟩)
      simp only [Constr.Holds, eval_cons, eval_nil, one_mul, add_zero] at h1 h2
      exact ⟨h1, h2⟩
    have halong := (along_iff _ _).1 hr.1.choose_spec.2.2
    unfold OnTime
    simp only [routeOf]
    apply arrivals_le (fun v => p (.t v))
    · exact (hlow _ hG.source_mem).1
    · intro i j hij
      have he : (i, j) ∈ q.chosen p := hp.2.2.2 _ hij
      have he' := (mem_chosen.1 he).1
      have := hc ⟨[(1, .t i), (-1, .t j), (q.G.upper .sink, .x i j)], .le,
          q.G.upper .sink - q.G.service i - q.G.time i j⟩ (by
        simp only [timeConstrs, List.mem_append]
        left; left
        exact List.mem_map.2 ⟨(i, j), he', rfl⟩)
      simp only [Constr.Holds, eval_cons, eval_nil] at this
      have hv := hf.binary.value he'
      simp only [if_pos he] at hv
      rw [hv] at this
      linarith
    · intro v hv
      obtain ⟨u, hu⟩ := pred_of_mem (mid ++ [Node.sink]) .source hv
      exact hlow v (hG.edge_mem u v (halong u v hu)).2

/-- The column that LP pricing adds, for any solver that returns feasible points. -/
theorem solve_any {run timeUp : Bool} {keys : List Node} {solver : LP PVar → PricingLP.Answer} {cols cols' : List Column}
    (hsound : SolverSound solver) (h : q.solve run timeUp keys solver cols = .ok (cols', true)) :
    ∃ prob c, q.formulate = .ok prob ∧ prob.Feasible (solver prob).point ∧ cols' = cols ++ [c] ∧
      c.name = .num (cols.length + 1) ∧ c.vehicleType = q.vehicleType ∧ c.path = none ∧
      c.nodes = graphNodes (q.chosen (solver prob).point) ∧ c.edges = graphEdges (q.chosen (solver prob).point) := by
  unfold solve at h
  split at h
  · cases h
  · split at h
    · cases h
    · rename_i prob hform
      split at h
      · cases h
      · rename_i z hz
        split at h
        · rename_i hcond
          obtain ⟨hneg, hinf⟩ := hcond
          obtain ⟨hfeas, hval⟩ := hsound prob z hz hinf
          split at h
          · cases h
          · rename_i cols2 hadd
            simp only [Except.ok.injEq, Prod.mk.injEq, and_true] at h
            subst h
            unfold addRoute at hadd
            split at hadd
            · cases hadd
            · split at hadd
              · cases hadd
              · simp only [Except.ok.injEq] at hadd
                exact ⟨prob, _, hform, hfeas, hadd.symm, rfl, rfl, rfl, rfl, rfl⟩
        · cases h

end PricingLP

end Vrpy
