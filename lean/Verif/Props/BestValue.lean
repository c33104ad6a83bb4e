import Verif.Props.Locking
import Verif.Props.MasterFeasible
import Verif.Props.Reports

/-!
# C26, C27: the value of the solution, and the load of its vehicles
-/

namespace Vrpy

open Spec

/-- The cost of every route of the solution, driven by the vehicle it is given. -/
def Spec.routeCosts (H : Net) (S : Solution) : List ℚ :=
  S.routes.map (fun p => cost H ((dget S.types p.1).getD 0) p.2)

/-- `m` is the largest number of the list. -/
def Spec.IsLargest (m : ℚ) (l : List ℚ) : Prop := m ∈ l ∧ ∀ x ∈ l, x ≤ m

private theorem routeCosts_of_entries {H : Net} {types : Dict Nat Nat} {l : Dict Nat (List Node)} {D : Dict Nat ℚ}
    (h : List.Forall₂ (fun x y => routeCostEntry H types x = .ok y) l D) :
    D.map Prod.snd = l.map (fun p => cost H ((dget types p.1).getD 0) p.2) := by
  induction h with
  | nil => rfl
  | @cons x y l D hx _ ih =>
    unfold routeCostEntry at hx
    cases hk : dget types x.1 with
    | none => simp [hk] at hx
    | some k =>
      cases hs : sumEdgeCosts H k (consecutive x.2) with
      | error e => simp [hk, hs] at hx
      | ok c =>
        simp only [hk, hs, Except.ok.injEq] at hx
        obtain ⟨_, rfl⟩ := sumEdgeCosts_route.1 hs
        subst hx
        simp [hk, ih]

private theorem foldl_max (l : List ℚ) (a : ℚ) : IsLargest (l.foldl max a) (a :: l) := by
  induction l generalizing a with
  | nil => exact ⟨by simp, by simp⟩
  | cons b l ih =>
    obtain ⟨h1, h2⟩ := ih (max a b)
    rw [List.foldl_cons]
    have hab := h2 (max a b) (by simp)
    refine ⟨?_, ?_⟩
    · rcases List.mem_cons.1 h1 with h | h
      · rw [h]
        rcases max_choice a b with e | e <;> rw [e] <;> simp
      · simp [h]
    · intro x hx
      simp only [List.mem_cons] at hx
      rcases hx with rfl | rfl | hx
      · exact (le_max_left _ _).trans hab
      · exact (le_max_right _ _).trans hab
      · exact h2 x (by simp [hx])

/-- **C26**, what `best_value` is: the sum of the costs of the reported routes for their vehicle types, or the largest of
them with `minimize_global_span`, plus the penalty for every dropped customer. -/
theorem C26_best_value {H : Net} {span : Bool} {pen : ℚ} {S : Solution} {v : ℚ} (h : bestValue H span pen S = .ok v) :
    (span = false → v = (routeCosts H S).sum + pen * S.dropped.length) ∧
    (span = true → ∃ m, IsLargest m (routeCosts H S) ∧ v = m + pen * S.dropped.length) := by
  unfold bestValue at h
  cases hc : bestRoutesCost H S with
  | error e => simp [hc] at h
  | ok D =>
    simp only [hc] at h
    have hD : D.map Prod.snd = routeCosts H S := routeCosts_of_entries (py_mapM_ok.1 hc)
    rw [hD] at h
    have hpen : ∀ c : ℚ, (if pen ≠ 0 then c + pen * S.dropped.length else c) = c + pen * S.dropped.length := by
      intro c
      split
      · rfl
      · rename_i h0
        push Not at h0
        rw [h0]; ring
    cases span with
    | false =>
      simp only [totalOf, Bool.false_eq_true, if_false, hpen, Except.ok.injEq] at h
      exact ⟨fun _ => h.symm, fun hf => (by cases hf)⟩
    | true =>
      refine ⟨fun hf => (by cases hf), fun _ => ?_⟩
      cases hl : routeCosts H S with
      | nil => simp [totalOf, hl] at h
      | cons a l =>
        simp only [totalOf, hl, if_true, hpen, Except.ok.injEq] at h
        exact ⟨_, foldl_max l a, h.symm⟩

/-- **C26**, when `best_value` is defined: every route has a vehicle type and drives along arcs with a cost for it (and
there is at least one route, with `minimize_global_span`). -/
theorem C26_value_defined {H : Net} {span : Bool} {pen : ℚ} {S : Solution}
    (hr : ∀ i r, (i, r) ∈ S.routes → ∃ k, dget S.types i = some k ∧
      Along (fun u v => v ∈ H.succ u ∧ k < (H.cost u v).length) r)
    (hne : span = true → S.routes ≠ []) : ∃ v, bestValue H span pen S = .ok v := by
  have hc : ∃ D, bestRoutesCost H S = .ok D := by
    refine py_mapM_total ?_
    intro p hp
    obtain ⟨k, hk, hal⟩ := hr p.1 p.2 hp
    refine ⟨(p.1, cost H k p.2), ?_⟩
    simp [routeCostEntry, hk, sumEdgeCosts_route.2 ⟨hal, rfl⟩]
  obtain ⟨D, hD⟩ := hc
  have hl := routeCosts_of_entries (py_mapM_ok.1 hD)
  unfold bestValue
  simp only [hD, hl, totalOf]
  cases span with
  | false => simp
  | true =>
    cases hS : S.routes with
    | nil => exact absurd hS (hne rfl)
    | cons p l => simp

namespace Master

variable {M : Master} {cols : List Column} {p : MVar → ℚ}

private theorem sum_drops (h : ∀ v ∈ M.drops, p (.drop v) = 0 ∨ p (.drop v) = 1) :
    (M.drops.map (fun v => M.dropPenalty * p (.drop v))).sum = M.dropPenalty * (M.dropped p).length := by
  unfold dropped
  revert h
  generalize M.drops = l
  intro h
  induction l with
  | nil => simp
  | cons v l ih =>
    have ih' := ih (fun v hv => h v (List.mem_cons_of_mem _ hv))
    rw [List.filter_cons]
    rcases h v List.mem_cons_self with e | e
    · rw [if_neg (by rw [e]; norm_num), List.map_cons, List.sum_cons, e, ih']
      ring
    · rw [if_pos (by rw [e]; norm_num), List.map_cons, List.sum_cons, e, ih', List.length_cons]
      push_cast
      ring

/-- **C26**, the objective of the final master: the costs of the selected columns (the makespan, with the global span) plus
the penalty for every dropped customer; the artificial vehicles contribute nothing.  Not periodic. -/
theorem C26_objective (hper : M.periodic = false) (hf : (M.lp cols false).Feasible p) :
    (M.objective cols).eval p =
      (if M.globalSpan then p .makespan else ((selected cols p).map Column.cost).sum) +
        M.dropPenalty * (M.dropped p).length := by
  have hb : ((List.range M.numVehicles.length).map (fun k => big * p (.bound k))).sum = 0 := by
    apply List.sum_eq_zero
    intro x hx
    obtain ⟨k, hk, rfl⟩ := List.mem_map.1 hx
    rw [bound_zero hf (List.mem_range.1 hk), mul_zero]
  have hd : M.dummies = [] := by simp [dummies, hper]
  have hsel := sum_selected (cols := cols) (p := p) Column.cost (fun c hc => (mip_y hf hc).1)
  have hdr := sum_drops (M := M) (p := p) (fun v hv => drop_zero_or_one hf hv)
  unfold objective
  simp only [eval_append, hd, List.map_nil, eval_nil]
  have e1 : LinExpr.eval ((List.range M.numVehicles.length).map (fun k => (big, MVar.bound k))) p = 0 := by
    simpa [LinExpr.eval, Function.comp_def] using hb
  have e2 : LinExpr.eval (M.drops.map (fun v => (M.dropPenalty, MVar.drop v))) p = M.dropPenalty * (M.dropped p).length := by
    simpa [LinExpr.eval, Function.comp_def] using hdr
  rw [e1, e2]
  split
  · simp [LinExpr.eval]
  · have : LinExpr.eval (cols.map (fun c => (c.cost, MVar.y c.name))) p = ((selected cols p).map Column.cost).sum := by
      simpa [LinExpr.eval, Function.comp_def] using hsel
    rw [this]
    ring

/-- The routes reported when nothing is locked. -/
theorem report_unlocked {H : Net} {caps : List ℚ} {K : Nat} {path : Column → List Node} {graphs : List Column}
    {routes : Dict Nat (List Node)} {types : Dict Nat Nat}
    (h : bestRoutesAsNodeLists H caps K path graphs [] = .ok (routes, types)) :
    routes = numbered (graphs.map path) ∧ types = numbered (graphs.map Column.vehicleType) := by
  unfold bestRoutesAsNodeLists at h
  simp only [List.foldlM_nil, addGraphs, pure, Except.pure, Except.ok.injEq, Prod.mk.injEq] at h
  exact ⟨h.1.symm, h.2.symm⟩

theorem routeCosts_numbered {H : Net} {path : Column → List Node} {graphs : List Column} {dropped : List Node} :
    routeCosts H ⟨numbered (graphs.map path), numbered (graphs.map Column.vehicleType), dropped⟩ =
      graphs.map (fun c => Spec.cost H c.vehicleType (path c)) := by
  unfold routeCosts
  apply List.ext_getElem?
  intro i
  simp only [numbered, List.getElem?_map, List.getElem?_zipIdx]
  cases hi : graphs[i]? with
  | none => simp
  | some c =>
    have : dget (numbered (graphs.map Column.vehicleType)) (1 + i) = some c.vehicleType := by
      rw [dget_numbered, if_pos (by omega)]
      simp [hi]
    rw [numbered] at this
    simp [this]

/-- **C26 (partial).** `best_value` equals the objective of the selected master solution (not periodic, nothing locked, no
global span), provided every selected column is priced at the cost of its route for its vehicle type.  What is missing:
columns made from initial routes in a mixed fleet need not be (`C26_mixed_fleet_counterexample`), and locked complete routes
are not part of the master problem. -/
theorem C26_value_is_objective_partial {H : Net} {caps : List ℚ} {K : Nat} {path : Column → List Node}
    {routes : Dict Nat (List Node)} {types : Dict Nat Nat} {v : ℚ} (hper : M.periodic = false)
    (hspan : M.globalSpan = false) (hf : (M.lp cols false).Feasible p)
    (hprice : ∀ c ∈ selected cols p, c.cost = Spec.cost H c.vehicleType (path c))
    (hres : bestRoutesAsNodeLists H caps K path (selected cols p) [] = .ok (routes, types))
    (hv : bestValue H M.globalSpan M.dropPenalty ⟨routes, types, M.dropped p⟩ = .ok v) :
    v = (M.objective cols).eval p := by
  obtain ⟨rfl, rfl⟩ := report_unlocked hres
  rw [C26_objective hper hf, if_neg (by simp [hspan])]
  rw [(C26_best_value hv).1 hspan, routeCosts_numbered]
  congr 2
  exact (List.map_congr_left (fun c hc => (hprice c hc).symm))

/-- **C26 (partial)** with the global span, for at most 74 columns: `best_value` is the objective of an optimal solution. -/
theorem C26_span_partial {H : Net} {caps : List ℚ} {K : Nat} {path : Column → List Node}
    {routes : Dict Nat (List Node)} {types : Dict Nat Nat} {v : ℚ} (hper : M.periodic = false)
    (hspan : M.globalSpan = true) (hnd : (cols.map Column.name).Nodup)
    (hnames : ∀ c ∈ cols, ∃ i, c.name = .num i ∧ 1 ≤ i ∧ i ≤ 74) (hcost : ∀ c ∈ cols, 0 ≤ c.cost)
    (hopt : (M.lp cols false).Optimal p)
    (hprice : ∀ c ∈ selected cols p, c.cost = Spec.cost H c.vehicleType (path c))
    (hres : bestRoutesAsNodeLists H caps K path (selected cols p) [] = .ok (routes, types))
    (hv : bestValue H M.globalSpan M.dropPenalty ⟨routes, types, M.dropped p⟩ = .ok v) :
    v = (M.objective cols).eval p := by
  obtain ⟨rfl, rfl⟩ := report_unlocked hres
  rw [C26_objective hper hopt.feasible, if_pos hspan]
  obtain ⟨m, hm, rfl⟩ := (C26_best_value hv).2 hspan
  rw [routeCosts_numbered] at hm
  obtain ⟨h1, h2⟩ := C52_makespan_partial hspan hnd hnames hcost hopt
  congr 1
  obtain ⟨c, hc, hcm⟩ := List.mem_map.1 hm.1
  refine le_antisymm ?_ ?_
  · rw [← hcm, ← hprice c hc]; exact h1 c hc
  · rcases h2 with h0 | ⟨d, hd, hdm⟩
    · rw [h0, ← hcm, ← hprice c hc]; exact hcost c (mem_selected.1 hc).1
    · rw [← hdm, hprice d hd]
      exact hm.2 _ (List.mem_map.2 ⟨d, hd, rfl⟩)

/-- The hypotheses of `C26_value_is_objective_partial` hold in the example with a dropped customer: the pair (2,3) costs 2,
the penalty is 5, and `best_value` is 7. -/
example : ((⟨exTri, 5, [2], false, false, false⟩ : Master).lp exPool false).Feasible exDropPoint ∧
    (∀ c ∈ selected exPool exDropPoint, c.cost = Spec.cost exTri c.vehicleType (exPath c)) ∧
    bestRoutesAsNodeLists exTri [] 1 exPath (selected exPool exDropPoint) [] =
      .ok ([(1, [.source, .cust 2, .cust 3, .sink])], [(1, 0)]) ∧
    bestValue exTri false 5 ⟨[(1, [.source, .cust 2, .cust 3, .sink])], [(1, 0)], [.cust 1]⟩ = .ok 7 :=
  ⟨feasible_of _ _ (by decide +kernel), by decide +kernel, by decide +kernel, by decide +kernel⟩

end Master

/-- A mixed fleet with a small cheap van (type 0) and a large expensive truck (type 1); the two customers on one route. -/
private def exC26 : Net where
  nodes := [.source, .cust 1, .cust 2, .sink]
  succ := fun u => match u with
    | .source => [.cust 1, .cust 2]
    | .cust 1 => [.cust 2, .sink]
    | .cust 2 => [.sink]
    | _ => []
  demand := fun v => match v with | .cust 1 => 4 | .cust 2 => 7 | _ => 0
  cost := fun _ _ => [1, 10]

/-- `best_value` is not always the objective: an initial route in a mixed fleet is priced for vehicle type 0 but driven by
type 1, so the selected master solution has objective 3 while `best_value` is 30.  (All columns encode simple routes.) -/
theorem C26_mixed_fleet_counterexample :
    ∃ (H : Net) (caps : List ℚ) (cols : List Column) (p : MVar → ℚ) (path : Column → List Node),
      convertRoutes H caps [[.source, .cust 1, .cust 2, .sink]] = .ok cols ∧
      ((⟨H, 0, [], false, false, false⟩ : Master).lp cols false).Optimal p ∧
      (∀ c ∈ cols, IsShortestPath c.edges (path c)) ∧
      ((⟨H, 0, [], false, false, false⟩ : Master).objective cols).eval p = 3 ∧
      (match bestRoutesAsNodeLists H caps 2 path (Master.selected cols p) [] with
        | .ok (routes, types) => bestValue H false 0 ⟨routes, types, []⟩
        | .error e => .error e) = .ok 30 := by
  let c : Column := {
    name := .num 1
    nodes := [.source, .cust 1, .cust 2, .sink]
    edges := [(.source, .cust 1), (.cust 1, .cust 2), (.cust 2, .sink)]
    cost := 3
    vehicleType := 1 }
  refine ⟨exC26, [5, 12], [c], fun x => if x = .y (.num 1) then 1 else 0,
    fun _ => [.source, .cust 1, .cust 2, .sink], by decide +kernel, ⟨feasible_of _ _ (by decide +kernel), ?_⟩, ?_,
    by decide +kernel, by decide +kernel⟩
  · intro x' hx'
    have h := hx'.constrs (Master.visitConstr ⟨exC26, 0, [], false, false, false⟩ [c] false (.cust 1)) (by
      simp only [Master.lp, List.append_assoc, List.mem_append, List.mem_map]
      exact Or.inl ⟨.cust 1, by decide, rfl⟩)
    have h1 : x' (.y (.num 1)) = 1 := by
      simpa [Constr.Holds, Master.visitConstr, LinExpr.eval, c, Column.visited, Master.drops, Master.dummies] using h
    simp [Master.lp, Master.objective, LinExpr.eval, c, h1, Master.drops, Master.dummies]
  · intro c' hc'
    simp only [List.mem_singleton] at hc'
    subst hc'
    exact (shortest_iff (L := [.cust 1, .cust 2]) (by decide) (fun e => Iff.rfl) _).2 rfl

/-- **C27.** If every selected column can be carried by its vehicle type, then every reported route, locked ones included,
can: `best_routes_load` is at most the capacity of `best_routes_type`. -/
theorem C27_reported_loads {H : Net} {caps : List ℚ} {K : Nat} {path : Column → List Node} {graphs : List Column}
    {pre : List (List Node)} {routes : Dict Nat (List Node)} {types : Dict Nat Nat} {dropped : List Node}
    (hcols : ∀ c ∈ graphs, WithinCapacity caps c.vehicleType (load H (path c)))
    (hres : bestRoutesAsNodeLists H caps K path graphs pre = .ok (routes, types)) :
    ∀ i q, (i, q) ∈ bestRoutesLoad H caps false false ⟨routes, types, dropped⟩ → ∀ k, dget types i = some k →
      ∃ c, caps[k]? = some c ∧ q ≤ c := by
  intro i q hiq k hk
  unfold bestRoutesLoad at hiq
  split at hiq
  · simp at hiq
  · rename_i hcap
    simp only [Bool.false_eq_true, or_false] at hcap
    obtain ⟨⟨j, r⟩, hr, he⟩ := List.mem_map.1 hiq
    simp only [Prod.mk.injEq] at he
    obtain ⟨rfl, rfl⟩ := he
    show ∃ c, caps[k]? = some c ∧ load H r ≤ c
    unfold bestRoutesAsNodeLists at hres
    cases hf : pre.foldlM (mergeLocked H caps K) (graphs.foldl (addGraph path) ([], [], 1)) with
    | error e => simp [hf] at hres
    | ok st =>
      simp only [hf, Except.ok.injEq, Prod.mk.injEq] at hres
      have hm := merged_all hf
      obtain ⟨rfl, rfl⟩ := hres
      simp only [hm.routes] at hr
      obtain ⟨h1, h2⟩ := (mem_numbered _ _ _).1 hr
      rw [List.getElem?_append] at h2
      split at h2
      · rename_i hlt
        rw [List.length_map] at hlt
        rw [hm.type_old j (by omega), dget_numbered, if_pos h1] at hk
        rw [List.getElem?_map] at h2 hk
        cases hg : graphs[j - 1]? with
        | none => simp [hg] at h2
        | some c =>
          simp only [hg, Option.map_some, Option.some.injEq] at h2 hk
          subst h2 hk
          exact hcols c (List.mem_of_getElem? hg) hcap
      · rename_i hge
        rw [List.length_map] at hge h2
        have ht := hm.type_locked (j - 1 - graphs.length) r h2
        have hj : graphs.length + 1 + (j - 1 - graphs.length) = j := by omega
        rw [hj, hk] at ht
        obtain ⟨_, hc, _⟩ := (lockedType_ok ht).1 k rfl
        obtain ⟨hc1, hc2⟩ := hc hcap
        exact ⟨caps[k], List.getElem?_eq_getElem hc1, by simpa [List.getD_eq_getElem?_getD, hc1] using hc2⟩

/-- C27 applies: one column for type 1 and one locked route for type 0. -/
example : ∃ routes types, bestRoutesAsNodeLists exC26 [5, 12] 2 (fun _ => [.source, .cust 2, .sink])
      [{ name := .num 1, nodes := [], edges := [], cost := 0, vehicleType := 1 }] [[.source, .cust 1, .sink]] =
        .ok (routes, types) ∧
    bestRoutesLoad exC26 [5, 12] false false ⟨routes, types, []⟩ = [(1, 7), (2, 4)] ∧ types = [(1, 1), (2, 0)] :=
  ⟨[(1, [.source, .cust 2, .sink]), (2, [.source, .cust 1, .sink])], [(1, 1), (2, 0)], by decide +kernel,
    by decide +kernel, rfl⟩

end Vrpy
