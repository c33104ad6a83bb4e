import Verif.Proofs.Master
import Verif.Props.Cspy
import Verif.Props.Pricing
import Verif.Props.PricingLP

/-!
# The master problem: C23, C24, C25, C32, C52, C54
-/

namespace Vrpy

open Spec

namespace Master

variable {M : Master} {cols : List Column} {p : MVar → ℚ}

theorem visited_count {c : Column} {r : List Node} (h : Draws c r) (gs : Bool) {v : Node} (h1 : v ≠ .source)
    (h2 : v ≠ .sink) : (c.visited gs).count v = r.count v := by
  unfold Column.visited
  rw [List.count_filter (by simp [h1, h2])]
  cases hp : c.path with
  | none => exact h.nodes.count_eq v
  | some q =>
    simp only
    split
    · exact h.nodes.count_eq v
    · rw [h.path q hp]

theorem path_eq {G : Net} {c : Column} {r q : List Node} (hr : IsSimpleRoute G r) (h : Draws c r)
    (hq : IsShortestPath c.edges q) : q = r := by
  obtain ⟨mid, rfl, _⟩ := hr.1
  exact (shortest_iff hr.2 (fun e => h.edges.mem_iff) q).1 hq

/-- The routes read off a solution of the final problem are simple routes of the network. -/
theorem selected_routes (hpool : PoolOk M.G cols) (hf : (M.lp cols false).Feasible p) {path : Column → List Node}
    (hpath : ∀ c ∈ selected cols p, IsShortestPath c.edges (path c)) {c : Column} (hc : c ∈ selected cols p) :
    IsSimpleRoute M.G (path c) ∧ Draws c (path c) := by
  have hcol := (mem_selected.1 hc).1
  rcases hpool c hcol with ⟨n, hn⟩ | ⟨r, hr, hd⟩
  · have := selected_not_non hf hc
    rw [hn] at this
    exact absurd this (by simp [isNon])
  · rw [path_eq hr hd (hpath c hc)]
    exact ⟨hr, hd⟩

theorem flatten_count (hpool : PoolOk M.G cols) (hf : (M.lp cols false).Feasible p) {path : Column → List Node}
    (hpath : ∀ c ∈ selected cols p, IsShortestPath c.edges (path c)) {v : Node} (hv : v ∈ M.G.customers) :
    ((selected cols p).map (fun c => ((c.visited M.globalSpan).count v : ℚ))).sum =
      (((selected cols p).map path).flatten.count v : ℚ) := by
  obtain ⟨_, h1, h2⟩ := mem_customers.1 hv
  have H : ∀ c ∈ selected cols p, (c.visited M.globalSpan).count v = (path c).count v := fun c hc =>
    visited_count (selected_routes hpool hf hpath hc).2 _ h1 h2
  revert H
  generalize selected cols p = l
  intro H
  induction l with
  | nil => simp
  | cons c l ih =>
    simp only [List.map_cons, List.sum_cons, List.flatten_cons, List.count_append, Nat.cast_add]
    rw [ih (fun c hc => H c (List.mem_cons_of_mem _ hc)), H c List.mem_cons_self]

theorem mem_dropped {v : Node} : v ∈ M.dropped p ↔ v ∈ M.drops ∧ 1 / 2 < p (.drop v) := by simp [dropped]

/-- **C23**: for every point the MIP solver may return for the final master problem of a problem that is not periodic, every customer
that is not dropped is on exactly one of the routes that are read off, dropped customers are on none, nothing is
dropped unless a penalty is set, and every route is a simple route of the network. -/
theorem C23_each_customer_once (hpool : PoolOk M.G cols) (hper : M.periodic = false) (hf : (M.lp cols false).Feasible p)
    {path : Column → List Node} (hpath : ∀ c ∈ selected cols p, IsShortestPath c.edges (path c)) :
    VisitsEachOnce (M.G.customers.filter (fun v => v ∉ M.dropped p)) ((selected cols p).map path) ∧
      (∀ v ∈ M.dropped p, ∀ r ∈ (selected cols p).map path, v ∉ r) ∧
      (M.dropPenalty = 0 → M.dropped p = []) ∧
      ∀ r ∈ (selected cols p).map path, IsSimpleRoute M.G r := by
  have hdum : M.dummies = [] := by simp [dummies, hper]
  have key : ∀ v ∈ M.G.customers, (((selected cols p).map path).flatten.count v : ℚ) +
      (if v ∈ M.drops then p (.drop v) else 0) = 1 := by
    intro v hv
    have h := visit_eq hf hv
    rw [flatten_count hpool hf hpath hv] at h
    simpa [hdum, hper] using h
  have hdc : ∀ v ∈ M.drops, v ∈ M.G.customers := by
    intro v hv
    unfold drops at hv
    split at hv
    · simp at hv
    · exact hv
  refine ⟨?_, ?_, ?_, ?_⟩
  · intro v hv
    obtain ⟨hv, hnd⟩ := List.mem_filter.1 hv
    have hnd : v ∉ M.dropped p := by simpa using hnd
    have h := key v hv
    have h0 : (if v ∈ M.drops then p (.drop v) else 0) = 0 := by
      split
      · rename_i hd
        rcases drop_zero_or_one hf hd with h | h
        · exact h
        · exact absurd (mem_dropped.2 ⟨hd, by rw [h]; norm_num⟩) hnd
      · rfl
    rw [h0, add_zero] at h
    have h' : ((selected cols p).map path).flatten.count v = 1 := by exact_mod_cast h
    rw [← h', List.count, List.countP_eq_length_filter]
    congr 2
  · intro v hv r hr hvr
    obtain ⟨hd, hgt⟩ := mem_dropped.1 hv
    have h := key v (hdc v hd)
    rw [if_pos hd] at h
    rcases drop_zero_or_one hf hd with h1 | h1
    · rw [h1] at hgt; norm_num at hgt
    · rw [h1] at h
      have h' : (((selected cols p).map path).flatten.count v : ℚ) = 0 := by linarith
      have h'' : ((selected cols p).map path).flatten.count v = 0 := by exact_mod_cast h'
      exact List.count_eq_zero.1 h'' (List.mem_flatten.2 ⟨r, hr, hvr⟩)
  · intro h
    simp [dropped, drops, h]
  · intro r hr
    obtain ⟨c, hc, rfl⟩ := List.mem_map.1 hr
    exact (selected_routes hpool hf hpath hc).1

/-- **C24**: the routes that are read off use at most `num_vehicles[k]` vehicles of type `k`, and exactly that many with
`use_all_vehicles`. -/
theorem C24_fleet (hper : M.periodic = false) (hf : (M.lp cols false).Feasible p) {k n : Nat}
    (hk : M.numVehicles[k]? = some n) :
    ((selected cols p).filter (fun c => c.vehicleType = k)).length ≤ n ∧
      (M.useAllVehicles = true → ((selected cols p).filter (fun c => c.vehicleType = k)).length = n) :=
  fleet_selected hper hf hk

/-- **C25**: a column whose path repeats a node is not selected in the final problem, provided such columns are marked by their
name (`C25_marked`). -/
theorem C25_elementary (hmark : ∀ c ∈ cols, ∀ q, c.path = some q → ¬ q.Nodup → ∃ n, c.name = .nonElem n)
    (hf : (M.lp cols false).Feasible p) {c : Column} (hc : c ∈ selected cols p) {q : List Node} (hq : c.path = some q) :
    q.Nodup := by
  by_contra hn
  obtain ⟨n, h⟩ := hmark c (mem_selected.1 hc).1 q hq hn
  have := selected_not_non hf hc
  rw [h] at this
  simp [isNon] at this

/-- **C32**: in the final problem of a periodic problem, the number of visits of a customer is its frequency, less what the
artificial variable and the drop variable take.  What is missing for C32: these may be positive
(`C32_counterexample`). -/
theorem C32_visits_partial (hpool : PoolOk M.G cols) (hper : M.periodic = true) (hf : (M.lp cols false).Feasible p)
    {path : Column → List Node} (hpath : ∀ c ∈ selected cols p, IsShortestPath c.edges (path c)) {v : Node}
    (hv : v ∈ M.G.customers) :
    (((selected cols p).map path).flatten.count v : ℚ) = M.G.freq v -
      (if v ∈ M.dropped p then 1 else 0) - (if 1 < M.G.freq v then p (.dummy v) else 0) := by
  have h := visit_eq hf hv
  rw [flatten_count hpool hf hpath hv, if_pos hper] at h
  have h1 : (if v ∈ M.dummies then p (.dummy v) else 0) = if 1 < M.G.freq v then p (.dummy v) else 0 := by
    have : v ∈ M.dummies ↔ 1 < M.G.freq v := by simp [dummies, hper, hv]
    simp only [this]
  have h2 : (if v ∈ M.drops then p (.drop v) else 0) = if v ∈ M.dropped p then 1 else 0 := by
    by_cases hd : v ∈ M.drops
    · rcases drop_zero_or_one hf hd with e | e
      · simp [mem_dropped, hd, e]
      · simp [mem_dropped, hd, e]; norm_num
    · simp [mem_dropped, hd]
  rw [h1, h2] at h
  linarith

theorem dummy_int (hf : (M.lp cols false).Feasible p) {v : Node} (hv : v ∈ M.dummies) :
    p (.dummy v) = 0 ∨ 1 ≤ p (.dummy v) := by
  have h := hf.vars { var := .dummy v, lo := some 0, isInt := !false } (by
    simp only [lp, varDecls, List.append_assoc, List.mem_append, List.mem_map]
    exact Or.inr (Or.inr (Or.inl ⟨v, hv, rfl⟩)))
  obtain ⟨h1, _, h3⟩ := h
  have h1' := h1 0 rfl
  obtain ⟨z, hz⟩ := h3 rfl
  simp only at h1' hz
  rw [hz] at h1' ⊢
  have a : 0 ≤ z := by exact_mod_cast h1'
  rcases (by omega : z = 0 ∨ 1 ≤ z) with rfl | h
  · left; simp
  · right; exact_mod_cast h

theorem sum_nonneg {α : Type} {l : List α} {f : α → ℚ} (h : ∀ a ∈ l, 0 ≤ f a) : 0 ≤ (l.map f).sum := by
  refine List.sum_nonneg ?_
  intro x hx
  obtain ⟨a, ha, rfl⟩ := List.mem_map.1 hx
  exact h a ha

theorem le_sum_of_mem {α : Type} {l : List α} {f : α → ℚ} (h : ∀ a ∈ l, 0 ≤ f a) {a : α} (ha : a ∈ l) :
    f a ≤ (l.map f).sum := by
  induction l with
  | nil => simp at ha
  | cons b l ih =>
    have hb := h b List.mem_cons_self
    have hl := sum_nonneg (l := l) (f := f) (fun a ha => h a (List.mem_cons_of_mem _ ha))
    rw [List.map_cons, List.sum_cons]
    rcases List.mem_cons.1 ha with rfl | ha
    · linarith
    · have := ih (fun a ha => h a (List.mem_cons_of_mem _ ha)) ha
      linarith

/-- **C32**, for an optimal solution: if some selection of columns of total cost below `1e10` satisfies all frequencies,
and costs are not negative, every customer (without drop penalty) is visited exactly as often as its frequency says. -/
theorem C32_optimal_partial (hpool : PoolOk M.G cols) (hper : M.periodic = true) (hspan : M.globalSpan = false)
    (hdrop : M.dropPenalty = 0) (hcost : ∀ c ∈ cols, 0 ≤ c.cost)
    (hopt : (M.lp cols false).Optimal p)
    (hex : ∃ p', (M.lp cols false).Feasible p' ∧ (M.lp cols false).obj.eval p' < big)
    {path : Column → List Node} (hpath : ∀ c ∈ selected cols p, IsShortestPath c.edges (path c)) {v : Node}
    (hv : v ∈ M.G.customers) : (((selected cols p).map path).flatten.count v : ℚ) = M.G.freq v := by
  have h := C32_visits_partial hpool hper hopt.feasible hpath hv
  have hnd : v ∉ M.dropped p := by simp [dropped, drops, hdrop]
  rw [if_neg hnd, sub_zero] at h
  rw [h]
  by_cases hq : 1 < M.G.freq v
  · rw [if_pos hq]
    have hvd : v ∈ M.dummies := by simp [dummies, hper, hv, hq]
    rcases dummy_int hopt.feasible hvd with h0 | h1
    · rw [h0, sub_zero]
    · exfalso
      obtain ⟨p', hp', hlt⟩ := hex
      have hle := hopt.best p' hp'
      have hobj : (M.lp cols false).obj.eval p = (cols.map (fun c => c.cost * p (.y c.name))).sum +
          (M.dummies.map (fun v => big * p (.dummy v))).sum +
          ((List.range M.numVehicles.length).map (fun k => big * p (.bound k))).sum := by
        simp only [lp, objective, hspan, drops, hdrop, Bool.false_eq_true, if_false, if_true, eval_append, eval_map,
          List.map_nil, eval_nil, add_zero]
      have a1 : 0 ≤ (cols.map (fun c => c.cost * p (.y c.name))).sum := sum_nonneg (fun c hc =>
        mul_nonneg (hcost c hc) (by rcases (mip_y hopt.feasible hc).1 with e | e <;> rw [e] <;> norm_num))
      have a2 : big * p (.dummy v) ≤ (M.dummies.map (fun v => big * p (.dummy v))).sum :=
        le_sum_of_mem (f := fun v => big * p (.dummy v))
          (fun w hw => mul_nonneg (by norm_num [big]) (dummy_nonneg hopt.feasible hw)) hvd
      have a3 : 0 ≤ ((List.range M.numVehicles.length).map (fun k => big * p (.bound k))).sum := sum_nonneg (fun k hk => by
        rw [bound_zero hopt.feasible (List.mem_range.1 hk)]; simp)
      have a4 : big ≤ big * p (.dummy v) := by
        have : (0 : ℚ) < big := by norm_num [big]
        nlinarith
      rw [hobj] at hle
      linarith
  · rw [if_neg hq, sub_zero]

/-- The makespan constraint of a column, in terms of its value. -/
theorem span_le {relax : Bool} (hspan : M.globalSpan = true) (hnd : (cols.map Column.name).Nodup)
    (hf : (M.lp cols relax).Feasible p) {c : Column} (hc : c ∈ cols) {i : Nat} (hi : c.name = .num i) (h1 : 1 ≤ i)
    (h2 : i < nColumns) : c.cost * p (.y c.name) ≤ if i < 75 then p .makespan else 0 := by
  have h := hf.constrs (spanConstr cols i) (by
    simp only [lp, hspan, if_true, List.append_assoc, List.mem_append, List.mem_map, List.mem_range'_1]
    exact Or.inr (Or.inr ⟨i, ⟨h1, by simp only [nColumns] at *; omega⟩, rfl⟩))
  have hfil : cols.filter (fun c => c.name = .num i) = [c] := by
    clear hf h
    induction cols with
    | nil => simp at hc
    | cons d cols ih =>
      rw [List.map_cons, List.nodup_cons] at hnd
      rcases List.mem_cons.1 hc with rfl | hc
      · rw [List.filter_cons, if_pos (by simp [hi])]
        congr 1
        rw [List.filter_eq_nil_iff]
        intro d hd
        simp only [decide_eq_true_eq]
        intro hdi
        exact hnd.1 (List.mem_map.2 ⟨d, hd, by rw [hdi, hi]⟩)
      · have : d.name ≠ .num i := fun hdi => hnd.1 (List.mem_map.2 ⟨c, hc, by rw [hdi, hi]⟩)
        rw [List.filter_cons, if_neg (by simp [this])]
        exact ih hnd.2 hc
  simp only [spanConstr, Constr.Holds, hfil, List.map_cons, List.map_nil, eval_append, eval_cons, eval_nil] at h
  split at h <;> rename_i hlt <;> simp only [hlt, if_true, if_false, eval_cons, eval_nil] at h ⊢ <;> linarith

/-- **C52**, beyond the first 74 columns: the makespan variable is missing from their constraints, so a column with a number from
75 on and a positive cost can never be used, not even in the relaxation. -/
theorem C52_unusable {relax : Bool} (hspan : M.globalSpan = true) (hnd : (cols.map Column.name).Nodup)
    (hf : (M.lp cols relax).Feasible p) {c : Column} (hc : c ∈ cols) {i : Nat} (hi : c.name = .num i) (h1 : 75 ≤ i)
    (h2 : i < nColumns) (hcost : 0 < c.cost) : p (.y c.name) ≤ 0 := by
  have h := span_le hspan hnd hf hc hi (by omega) h2
  rw [if_neg (by omega)] at h
  by_contra hn
  exact absurd h (not_le.2 (mul_pos hcost (not_le.1 hn)))

/-- **C52**, for at most 74 columns: in an optimal solution of the final problem the makespan is the largest cost of a
selected route (0 if nothing is selected).  What is missing: more columns, see `C52_unusable`, `C52_counterexample`,
`C52_error`. -/
theorem C52_makespan_partial (hspan : M.globalSpan = true) (hnd : (cols.map Column.name).Nodup)
    (hnames : ∀ c ∈ cols, ∃ i, c.name = .num i ∧ 1 ≤ i ∧ i ≤ 74) (hcost : ∀ c ∈ cols, 0 ≤ c.cost)
    (hopt : (M.lp cols false).Optimal p) :
    (∀ c ∈ selected cols p, c.cost ≤ p .makespan) ∧
      (p .makespan = 0 ∨ ∃ c ∈ selected cols p, c.cost = p .makespan) := by
  have hf := hopt.feasible
  have hle : ∀ c ∈ selected cols p, c.cost ≤ p .makespan := by
    intro c hc
    obtain ⟨hc1, hc2⟩ := mem_selected.1 hc
    obtain ⟨i, hi, h1, h2⟩ := hnames c hc1
    have h := span_le hspan hnd hf hc1 hi h1 (by simp only [nColumns]; omega)
    rw [if_pos (by omega)] at h
    rcases (mip_y hf hc1).1 with e | e
    · rw [e] at hc2; exact absurd hc2 (lt_irrefl _)
    · rwa [e, mul_one] at h
  refine ⟨hle, ?_⟩
  have h0 : 0 ≤ p .makespan := (hf.vars { var := .makespan, lo := some 0 } (by
    simp [lp, varDecls, hspan])).1 0 rfl
  by_contra hno
  push Not at hno
  obtain ⟨hne, hlt⟩ := hno
  -- a smaller makespan would do
  obtain ⟨m, hm0, hm, hmlt⟩ : ∃ m, 0 ≤ m ∧ (∀ c ∈ selected cols p, c.cost ≤ m) ∧ m < p .makespan := by
    have hpos : 0 < p .makespan := lt_of_le_of_ne h0 (Ne.symm hne)
    revert hle hlt
    generalize selected cols p = l
    intro hle hlt
    induction l with
    | nil => exact ⟨0, le_refl _, by simp, hpos⟩
    | cons c l ih =>
      obtain ⟨m, h1, h2, h3⟩ := ih (fun c hc => hle c (List.mem_cons_of_mem _ hc))
        (fun c hc => hlt c (List.mem_cons_of_mem _ hc))
      refine ⟨max m c.cost, le_max_of_le_left h1, ?_, max_lt h3
        (lt_of_le_of_ne (hle c List.mem_cons_self) (hlt c List.mem_cons_self))⟩
      intro d hd
      rcases List.mem_cons.1 hd with rfl | hd
      · exact le_max_right _ _
      · exact (h2 d hd).trans (le_max_left _ _)
  let p' : MVar → ℚ := fun x => if x = .makespan then m else p x
  have hp' : ∀ x, x ≠ .makespan → p' x = p x := fun x hx => if_neg hx
  have hpm : p' .makespan = m := if_pos rfl
  have hev : ∀ e : LinExpr MVar, (∀ t ∈ e, t.2 ≠ .makespan) → e.eval p' = e.eval p := by
    intro e he
    unfold LinExpr.eval
    congr 1
    refine List.map_congr_left ?_
    intro t ht
    rw [hp' _ (he t ht)]
  have hfeas : (M.lp cols false).Feasible p' := by
    constructor
    · intro d hd
      by_cases hdm : d.var = .makespan
      · simp only [lp, varDecls, hspan, if_true, List.append_assoc, List.mem_append, List.mem_map, List.mem_singleton]
          at hd
        rcases hd with ⟨c, _, rfl⟩ | ⟨v, _, rfl⟩ | ⟨v, _, rfl⟩ | ⟨k, _, rfl⟩ | rfl
        · simp at hdm
        · simp at hdm
        · simp at hdm
        · simp at hdm
        · refine ⟨?_, ?_, ?_⟩
          · intro a ha; cases ha; rw [hpm]; exact hm0
          · intro b hb; cases hb
          · intro h; cases h
      · have h := hf.vars d hd
        unfold VarDecl.Holds at h ⊢
        rwa [hp' _ hdm]
    · intro k hk
      have hold := hf.constrs k hk
      simp only [lp, hspan, if_true, List.append_assoc, List.mem_append, List.mem_map, List.mem_range'_1] at hk
      have hother : (∀ t ∈ k.lhs, t.2 ≠ .makespan) → k.Holds p' := by
        intro ht
        unfold Constr.Holds at hold ⊢
        rwa [hev k.lhs ht]
      rcases hk with ⟨v, _, rfl⟩ | hk | ⟨i, ⟨hi1, hi2⟩, rfl⟩
      · refine hother ?_
        intro t ht
        simp only [visitConstr, List.mem_append, List.mem_map] at ht
        rcases ht with (⟨c, _, rfl⟩ | ht) | ht
        · simp
        · split at ht <;> simp at ht; rw [ht]; simp
        · split at ht <;> simp at ht; rw [ht]; simp
      · refine hother ?_
        intro t ht
        split at hk
        · simp at hk
        · obtain ⟨j, hj, rfl⟩ := List.mem_mapIdx.1 hk
          simp only [fleetConstr, List.mem_append, List.mem_map, List.mem_singleton] at ht
          rcases ht with ⟨c, _, rfl⟩ | rfl <;> simp
      · simp only [spanConstr, Constr.Holds, eval_append]
        rw [hev _ (by intro t ht; obtain ⟨c, _, rfl⟩ := List.mem_map.1 ht; simp)]
        rw [eval_map (x := p) (cols.filter (fun c => c.name = .num i)) (fun c => c.cost) (fun c => MVar.y c.name),
          sum_selected _ (fun c hc => (mip_y hf (List.mem_filter.1 hc).1).1)]
        have hlen : (selected (cols.filter (fun c => c.name = .num i)) p).length ≤ 1 := by
          refine (List.length_filter_le _ _).trans ?_
          clear hf hopt hold hle hlt hm hcost hnames hev hother
          induction cols with
          | nil => simp
          | cons d cols ih =>
            rw [List.map_cons, List.nodup_cons] at hnd
            rw [List.filter_cons]
            split
            · rename_i hdi
              have : cols.filter (fun c => c.name = .num i) = [] := by
                rw [List.filter_eq_nil_iff]
                intro e he
                simp only [decide_eq_true_eq] at hdi ⊢
                intro hei
                exact hnd.1 (List.mem_map.2 ⟨e, he, by rw [hei, hdi]⟩)
              simp [this]
            · exact ih hnd.2
        have hel : ∀ c ∈ selected (cols.filter (fun c => c.name = .num i)) p, c.cost ≤ m ∧ i < 75 := by
          intro c hc
          obtain ⟨hc1, hc2⟩ := mem_selected.1 hc
          obtain ⟨hc3, hc4⟩ := List.mem_filter.1 hc1
          obtain ⟨j, hj, _, hj2⟩ := hnames c hc3
          have : c.name = .num i := by simpa using hc4
          rw [this] at hj
          cases hj
          exact ⟨hm c (mem_selected.2 ⟨hc3, hc2⟩), by omega⟩
        revert hel hlen
        generalize selected (cols.filter (fun c => c.name = .num i)) p = l
        intro hlen hel
        match l, hlen with
        | [], _ =>
          split
          · simp only [List.map_nil, List.sum_nil, eval_cons, eval_nil, hpm]; linarith
          · simp
        | [c], _ =>
          obtain ⟨h1, h2⟩ := hel c List.mem_cons_self
          rw [if_pos h2]
          simp only [List.map_cons, List.map_nil, List.sum_cons, List.sum_nil, eval_cons, eval_nil, hpm]
          linarith
  have hobj := hopt.best p' hfeas
  simp only [lp, objective, hspan, if_true, eval_append, eval_cons, eval_nil, add_zero, one_mul, hpm] at hobj
  rw [hev _ (by intro t ht; obtain ⟨c, _, rfl⟩ := List.mem_map.1 ht; simp),
    hev _ (by intro t ht; obtain ⟨c, _, rfl⟩ := List.mem_map.1 ht; simp),
    hev _ (by intro t ht; obtain ⟨c, _, rfl⟩ := List.mem_map.1 ht; simp)] at hobj
  linarith

end Master

/-- **C25**, the marking: columns made from a path found by cspy are marked exactly if the path repeats a node. -/
theorem C25_marked {q : Cspy} {keys : List Node} {n : Nat} {path : List Node} {c : Column}
    (h : q.createRoute keys n path = .ok c) :
    c.path = some path ∧ ((∃ m, c.name = .nonElem m) ↔ ¬ path.Nodup) := by
  unfold Cspy.createRoute at h
  cases hs : sumEdgeCosts q.G q.vehicleType (graphEdges (consecutive path)) with
  | error e => simp [hs] at h
  | ok t =>
    simp only [hs] at h
    split at h
    · cases h
    · cases h
      refine ⟨rfl, ?_⟩
      by_cases hn : path.Nodup <;> simp [hn]

/-- A plan: routes with their vehicle types. -/
abbrev Spec.Plan := List (Nat × List Node)

/-- A plan for the network: routes that visit each customer not in `dropped` exactly once and no other customer, with at most
(with `all`: exactly) `fleet[k]` vehicles of type `k`. -/
structure Spec.ValidPlan (G : Net) (fleet : List Nat) (all : Bool) (dropped : List Node) (P : Plan) : Prop where
  routes : ∀ e ∈ P, IsRoute G e.2
  once : VisitsEachOnce (G.customers.filter (fun v => v ∉ dropped)) (P.map Prod.snd)
  skipped : ∀ v ∈ dropped, ∀ e ∈ P, v ∉ e.2
  vehicles : ∀ k n, fleet[k]? = some n → (P.filter (fun e => e.1 = k)).length ≤ n ∧
    (all = true → (P.filter (fun e => e.1 = k)).length = n)
  types : fleet ≠ [] → ∀ e ∈ P, e.1 < fleet.length

/-- What a plan costs. -/
def Spec.planCost (G : Net) (P : Plan) : ℚ := (P.map (fun e => Spec.cost G e.1 e.2)).sum

namespace Master

variable {M : Master} {cols : List Column}

theorem dget_visit (a : Answer) {v : Node} (hv : v ∈ M.G.customers) :
    dget (M.duals cols a).visit v = some (a.visitDual v) := by
  simp only [duals]
  revert hv
  generalize M.G.customers = l
  intro hv
  induction l with
  | nil => simp at hv
  | cons u l ih =>
    simp only [List.map_cons, dget]
    split
    · rename_i h; rw [h]
    · rename_i h
      exact ih ((List.mem_cons.1 hv).resolve_left h)

theorem stops_perm {G : Net} {fleet : List Nat} {all : Bool} {dropped : List Node} {P : Plan} (hG : WellFormed G)
    (hP : ValidPlan G fleet all dropped P) :
    (P.flatMap (fun e => stops e.2)).Perm (G.customers.filter (fun v => v ∉ dropped)) := by
  have hst : P.flatMap (fun e => stops e.2) = stops (P.map Prod.snd).flatten := by
    clear hP
    unfold stops
    induction P with
    | nil => rfl
    | cons e P ih => simp only [List.flatMap_cons, List.map_cons, List.flatten_cons, List.filter_append, ih]
  have hnd : G.customers.Nodup := hG.nodes_nodup.filter _
  rw [hst, List.perm_iff_count]
  intro v
  by_cases hv : v ∈ G.customers.filter (fun v => v ∉ dropped)
  · rw [List.count_eq_one_of_mem (hnd.filter _) hv]
    obtain ⟨_, h1, h2⟩ := mem_customers.1 (List.mem_filter.1 hv).1
    have h := hP.once v hv
    unfold stops
    rw [List.count_filter (by simp [h1, h2]), List.count, List.countP_eq_length_filter, ← h]
    congr 2
  · rw [List.count_eq_zero.2 hv, List.count_eq_zero]
    intro hmem
    unfold stops at hmem
    obtain ⟨hfl, hdep⟩ := List.mem_filter.1 hmem
    obtain ⟨r, hr, hvr⟩ := List.mem_flatten.1 hfl
    obtain ⟨e, he, rfl⟩ := List.mem_map.1 hr
    refine hv (List.mem_filter.2 ⟨?_, ?_⟩)
    · obtain ⟨mid, hmid, hall, _⟩ := hP.routes e he
      rw [hmid] at hvr
      simp only [decide_eq_true_eq] at hdep
      have : v ∈ mid := by
        simp only [routeOf, List.mem_cons, List.mem_append, List.not_mem_nil, or_false] at hvr
        rcases hvr with h | h | h
        · exact absurd h hdep.1
        · exact h
        · exact absurd h hdep.2
      exact mem_customers.2 ⟨(hall v this).2, hdep.1, hdep.2⟩
    · simp only [decide_eq_true_eq]
      exact fun hd => hP.skipped v hd e he hvr

theorem sum_types (f : Nat → ℚ) (P : Plan) (K : Nat) (h : ∀ e ∈ P, e.1 < K) :
    (P.map (fun e => f e.1)).sum =
      ((List.range K).map (fun k => f k * ((P.filter (fun e => e.1 = k)).length : ℚ))).sum := by
  induction P with
  | nil => simp
  | cons e P ih =>
    rw [List.map_cons, List.sum_cons, ih (fun e he => h e (List.mem_cons_of_mem _ he))]
    have hk := h e List.mem_cons_self
    have hstep : ∀ (l : List Nat), l.Nodup →
        (l.map (fun k => f k * (((e :: P).filter (fun e => e.1 = k)).length : ℚ))).sum =
        (if e.1 ∈ l then f e.1 else 0) + (l.map (fun k => f k * ((P.filter (fun e => e.1 = k)).length : ℚ))).sum := by
      intro l hl
      induction l with
      | nil => simp
      | cons k l ih' =>
        rw [List.nodup_cons] at hl
        rw [List.map_cons, List.sum_cons, ih' hl.2, List.map_cons, List.sum_cons, List.filter_cons]
        by_cases hek : e.1 = k
        · subst hek
          simp only [decide_true, if_true, List.length_cons, Nat.cast_add, Nat.cast_one, hl.1, if_false, List.mem_cons,
            true_or]
          ring
        · simp only [hek, decide_false, Bool.false_eq_true, if_false, List.mem_cons, false_or]
          ring
    rw [hstep _ List.nodup_range, if_pos (List.mem_range.2 hk)]

/-- **C54**, weak duality: let the dual values be any numbers that are not positive for the fleet constraints
(arbitrary if all vehicles are used) and not above the drop penalty for customers that a plan drops.  If no route of a
valid plan has reduced cost (as computed by `add_reduced_cost_attribute`) below `-ε`, the dual value is at most the cost of the plan
(plus penalties) plus `ε` per route. -/
theorem C54_weak_duality (hG : WellFormed M.G) (hper : M.periodic = false) (a : Answer) {ε pen : ℚ} {dropped : List Node}
    {w : Nat → Node → Node → ℚ} {P : Plan} (hP : ValidPlan M.G M.numVehicles M.useAllVehicles dropped P)
    (hfleet : M.useAllVehicles = false → ∀ k < M.numVehicles.length, a.fleetDual k ≤ 0)
    (hdrop : ∀ v ∈ M.G.customers, v ∈ dropped → a.visitDual v ≤ pen)
    (hw : ∀ e ∈ P, reducedCosts M.G (M.duals cols a) e.1 none = .ok (w e.1))
    (hno : ∀ e ∈ P, -ε ≤ legSum (w e.1) e.2) :
    (M.G.customers.map a.visitDual).sum +
        ((List.range M.numVehicles.length).map (fun k => a.fleetDual k * (M.numVehicles.getD k 0 : ℚ))).sum ≤
      planCost M.G P + pen * (M.G.customers.filter (fun v => v ∈ dropped)).length + ε * P.length := by
  let d := M.duals cols a
  let μ : Nat → ℚ := fun k => (d.fleet.getD []).getD k 0
  have hvis : d.visit.map Prod.fst = M.G.customers := by simp [d, duals, Function.comp_def]
  have hnd : (d.visit.map Prod.fst).Nodup := by rw [hvis]; exact hG.nodes_nodup.filter _
  have hs : Node.source ∉ d.visit.map Prod.fst := by rw [hvis]; exact fun h => (mem_customers.1 h).2.1 rfl
  -- one route
  have hroute : ∀ e ∈ P, ((stops e.2).map a.visitDual).sum + μ e.1 ≤ Spec.cost M.G e.1 e.2 + ε := by
    intro e he
    have h1 := C14_reduced_costs hG hnd hs (hw e he) (hP.routes e he)
    have h2 := hno e he
    have h3 : ((stops e.2).map (fun v => (dget d.visit v).getD 0)).sum = ((stops e.2).map a.visitDual).sum := by
      congr 1
      refine List.map_congr_left ?_
      intro v hv
      have hvc : v ∈ M.G.customers := by
        obtain ⟨mid, hmid, hall, _⟩ := hP.routes e he
        have hc : ∀ u ∈ mid, u ∈ M.G.customers := by
          intro u hu
          obtain ⟨⟨n, rfl⟩, hm⟩ := hall u hu
          exact mem_customers.2 ⟨hm, by simp, by simp⟩
        rw [hmid, stops_routeOf hc] at hv
        exact hc v hv
      rw [dget_visit a hvc]; rfl
    rw [h3] at h1
    have h4 : legSum (w e.1) e.2 = Spec.cost M.G e.1 e.2 - ((stops e.2).map a.visitDual).sum - μ e.1 := h1
    linarith
  -- all routes
  have hsum : ((P.flatMap (fun e => stops e.2)).map a.visitDual).sum + (P.map (fun e => μ e.1)).sum ≤
      planCost M.G P + ε * P.length := by
    clear hP hw hno
    unfold planCost
    induction P with
    | nil => simp
    | cons e P ih =>
      have h1 := hroute e List.mem_cons_self
      have h2 := ih (fun e he => hroute e (List.mem_cons_of_mem _ he))
      simp only [List.flatMap_cons, List.map_append, List.sum_append, List.map_cons, List.sum_cons, List.length_cons,
        Nat.cast_add, Nat.cast_one]
      linarith
  rw [((stops_perm hG hP).map a.visitDual).sum_eq] at hsum
  -- dropped customers
  have hsplit : (M.G.customers.map a.visitDual).sum ≤
      ((M.G.customers.filter (fun v => v ∉ dropped)).map a.visitDual).sum +
        pen * (M.G.customers.filter (fun v => v ∈ dropped)).length := by
    revert hdrop
    generalize M.G.customers = l
    intro hdrop
    induction l with
    | nil => simp
    | cons v l ih =>
      have h2 := ih (fun v hv => hdrop v (List.mem_cons_of_mem _ hv))
      by_cases hv : v ∈ dropped
      · have h1 := hdrop v List.mem_cons_self hv
        simp only [List.filter_cons, hv, not_true, decide_false, decide_true, Bool.false_eq_true, if_false, if_true,
          List.map_cons, List.sum_cons, List.length_cons, Nat.cast_add, Nat.cast_one]
        linarith
      · simp only [List.filter_cons, hv, not_false_iff, decide_false, decide_true, Bool.false_eq_true, if_false, if_true,
          List.map_cons, List.sum_cons]
        linarith
  -- the fleet
  have hfl : ((List.range M.numVehicles.length).map (fun k => a.fleetDual k * (M.numVehicles.getD k 0 : ℚ))).sum ≤
      (P.map (fun e => μ e.1)).sum := by
    by_cases hn : M.numVehicles = []
    · have : ∀ k, μ k = 0 := by intro k; simp [μ, d, duals, hn]
      simp [hn, this]
    · have hμ : ∀ k < M.numVehicles.length, μ k = a.fleetDual k := by
        intro k hk
        simp [μ, d, duals, hn, hper, List.getD_eq_getElem?_getD, hk]
      rw [sum_types μ P M.numVehicles.length (hP.types hn)]
      refine List.sum_le_sum ?_
      intro k hk
      have hk := List.mem_range.1 hk
      rw [hμ k hk]
      have hget : M.numVehicles[k]? = some (M.numVehicles.getD k 0) := by
        simp [List.getD_eq_getElem?_getD, List.getElem?_eq_getElem hk]
      obtain ⟨h1, h2⟩ := hP.vehicles k _ hget
      cases hu : M.useAllVehicles with
      | true => rw [h2 hu]
      | false =>
        have h3 : ((P.filter (fun e => e.1 = k)).length : ℚ) ≤ (M.numVehicles.getD k 0 : ℚ) := by exact_mod_cast h1
        exact mul_le_mul_of_nonpos_left h3 (hfleet hu k hk)
  linarith

/-- **C54**, with the pricing problem solved as a MIP: if pricing with an exact solver over the whole network reports no column for
any vehicle type of the plan, the dual value is at most the cost of every valid plan of admissible routes, plus
penalties, plus 0.001 per route.  (With time windows, for windows that fit, see C18.) -/
theorem C54_lower_bound (hG : WellFormed M.G) (hd : M.G.demand .source = 0) (hs : M.G.service .sink = 0)
    (hper : M.periodic = false) (a : Answer) {pen : ℚ} {dropped : List Node} {q : Nat → PricingLP} {P : Plan}
    {keys : List Node} {solver : LP PVar → PricingLP.Answer} (hsolver : SolverExact solver)
    (hP : ValidPlan M.G M.numVehicles M.useAllVehicles dropped P)
    (hfleet : M.useAllVehicles = false → ∀ k < M.numVehicles.length, a.fleetDual k ≤ 0)
    (hdrop : ∀ v ∈ M.G.customers, v ∈ dropped → a.visitDual v ≤ pen)
    (hqG : ∀ k, (q k).G = M.G) (htw : ∀ k, (q k).timeWindows = true → WindowsFit M.G)
    (hw : ∀ e ∈ P, reducedCosts M.G (M.duals cols a) e.1 none = .ok (q e.1).weight)
    (hadm : ∀ e ∈ P, Admissible (q e.1) e.2 ∧ VariantFit (q e.1) e.2)
    (hfail : ∀ e ∈ P, ∃ cols', (q e.1).solve true false keys solver cols = .ok (cols', false)) :
    (M.G.customers.map a.visitDual).sum +
        ((List.range M.numVehicles.length).map (fun k => a.fleetDual k * (M.numVehicles.getD k 0 : ℚ))).sum ≤
      planCost M.G P + pen * (M.G.customers.filter (fun v => v ∈ dropped)).length + 1 / 1000 * P.length := by
  refine C54_weak_duality hG hper a hP hfleet hdrop (w := fun k => (q k).weight) hw ?_
  intro e he
  by_contra hlt
  push Not at hlt
  obtain ⟨cols', hf⟩ := hfail e he
  have hE := hqG e.1
  cases hform : (q e.1).formulate with
  | error err => simp [PricingLP.solve, hform] at hf
  | ok prob =>
    obtain ⟨x, hx, _, hobj⟩ := C18_routes_feasible_partial (by rw [hE]; exact hG) (by rw [hE]; exact hd)
      (by rw [hE]; exact hs) (by rw [hE]; exact htw e.1) (hadm e he).2 hform (hadm e he).1
    obtain ⟨y, hy⟩ := optimal_exists hform hx
    obtain ⟨h1, h2, h3⟩ := hsolver prob y hy
    have hle := h2.best x hx
    rw [hobj] at hle
    have hz : prob.obj.eval (solver prob).point < -(1 / 1000) := lt_of_le_of_lt hle hlt
    simp only [PricingLP.solve, hform, Bool.not_true, Bool.or_self, Bool.false_eq_true, if_false, h3, h1, and_true] at hf
    rw [if_pos hz] at hf
    cases hadd : (q e.1).addRoute keys cols (solver prob).point with
    | error err => simp [hadd] at hf
    | ok c => simp [hadd] at hf

end Master

end Vrpy
