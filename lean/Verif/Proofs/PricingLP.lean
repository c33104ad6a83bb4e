import Verif.Model.PricingLP
import Verif.Proofs.Flow
import Verif.Proofs.Pricing
import Verif.SpecColumns

/-!
# Feasible points of the pricing problem
-/

namespace Vrpy

open Spec

section LinExpr

variable {V : Type} (x : V → ℚ)

@[simp] theorem eval_nil : LinExpr.eval ([] : LinExpr V) x = 0 := rfl

@[simp] theorem eval_cons (t : ℚ × V) (e : LinExpr V) :
    LinExpr.eval (t :: e : LinExpr V) x = t.1 * x t.2 + LinExpr.eval e x := by
  simp [LinExpr.eval]

@[simp] theorem eval_append (e e' : LinExpr V) : LinExpr.eval (e ++ e' : LinExpr V) x = e.eval x + e'.eval x := by
  simp [LinExpr.eval]

@[simp] theorem eval_neg (e : LinExpr V) : e.neg.eval x = -e.eval x := by
  induction e with
  | nil => simp [LinExpr.neg]
  | cons t e ih =>
    have : LinExpr.neg (t :: e) = (-t.1, t.2) :: LinExpr.neg e := rfl
    rw [this, eval_cons, eval_cons, ih]
    ring

@[simp] theorem eval_lpSum (vs : List V) : (lpSum vs).eval x = (vs.map x).sum := by
  simp [LinExpr.eval, lpSum, Function.comp_def]

theorem eval_map {α : Type} (l : List α) (c : α → ℚ) (v : α → V) :
    LinExpr.eval (l.map (fun a => (c a, v a)) : LinExpr V) x = (l.map (fun a => c a * x (v a))).sum := by
  simp [LinExpr.eval, Function.comp_def]

end LinExpr

theorem route_customers {G : Net} {mid : List Node} (hr : IsRoute G (routeOf mid)) : ∀ v ∈ mid, v ∈ G.customers := by
  obtain ⟨mid', h1, h2, _⟩ := hr
  have : mid = mid' := by
    simp only [routeOf, List.cons.injEq, true_and] at h1
    exact List.append_cancel_right h1
  subst this
  intro v hv
  obtain ⟨⟨n, rfl⟩, hm⟩ := h2 v hv
  exact mem_customers.2 ⟨hm, by simp, by simp⟩

namespace PricingLP

variable {q : PricingLP} {cap : ℚ} {p : PVar → ℚ}

theorem mem_chosen {e : Node × Node} : e ∈ q.chosen p ↔ e ∈ q.G.edges ∧ p (.x e.1 e.2) > 1 / 2 := by
  simp [chosen]

/-- The flow variables are 0 or 1. -/
def Binary (q : PricingLP) (p : PVar → ℚ) : Prop := ∀ e ∈ q.G.edges, p (.x e.1 e.2) = 0 ∨ p (.x e.1 e.2) = 1

/-- The flow part of the problem. -/
structure FlowPoint (q : PricingLP) (p : PVar → ℚ) : Prop where
  binary : Binary q p
  balance : ∀ v ∈ q.G.customers, ((q.inFlow v).map p).sum = ((q.outFlow v).map p).sum
  source : ((q.outFlow .source).map p).sum = 1
  sink : ((q.inFlow .sink).map p).sum = 1
  two : 2 ≤ (q.G.edges.map (fun e => p (.x e.1 e.2))).sum

theorem flowPoint (h : (q.lp cap).Feasible p) : FlowPoint q p := by
  have hc : ∀ c ∈ q.flowConstrs, c.Holds p := by
    intro c hc
    apply h.constrs
    simp [lp, hc]
  refine ⟨?_, ?_, ?_, ?_, ?_⟩
  · intro e he
    have := h.vars { var := .x e.1 e.2, lo := some 0, up := some 1, isInt := true } (by
      simp only [lp, List.mem_append]
      left; left; left; left
      exact List.mem_map.2 ⟨e, he, rfl⟩)
    obtain ⟨h1, h2, h3⟩ := this
    obtain ⟨z, hz⟩ := h3 rfl
    have h1 := h1 0 rfl
    have h2 := h2 1 rfl
    simp only at hz h1 h2
    rw [hz] at h1 h2 ⊢
    have h1' : (0 : Int) ≤ z := by exact_mod_cast h1
    have h2' : z ≤ (1 : Int) := by exact_mod_cast h2
    have : z = 0 ∨ z = 1 := by omega
    rcases this with rfl | rfl
    · left; norm_num
    · right; norm_num
  · intro v hv
    have := hc ⟨lpSum (q.inFlow v) ++ (lpSum (q.outFlow v)).neg, .eq, 0⟩ (by
      simp only [flowConstrs, List.mem_append]
      left
      exact List.mem_map.2 ⟨v, hv, rfl⟩)
    simp only [Constr.Holds, eval_append, eval_neg, eval_lpSum] at this
    linarith
  · have := hc ⟨lpSum (q.outFlow .source), .eq, 1⟩ (by simp [flowConstrs])
    simpa [Constr.Holds] using this
  · have := hc ⟨lpSum (q.inFlow .sink), .eq, 1⟩ (by simp [flowConstrs])
    simpa [Constr.Holds] using this
  · have := hc ⟨q.G.edges.map (fun e => (1, .x e.1 e.2)), .ge, 2⟩ (by simp [flowConstrs])
    simp only [Constr.Holds, eval_map, one_mul] at this
    exact this

theorem Binary.value (h : Binary q p) {e : Node × Node} (he : e ∈ q.G.edges) :
    p (.x e.1 e.2) = if e ∈ q.chosen p then 1 else 0 := by
  rcases h e he with h0 | h0
  · rw [if_neg, h0]
    rw [mem_chosen, h0]
    rintro ⟨_, h⟩
    norm_num at h
  · rw [if_pos, h0]
    rw [mem_chosen, h0]
    exact ⟨he, by norm_num⟩

/-- Sums over all edges weighted with the flow are sums over the chosen edges. -/
theorem Binary.sum (h : Binary q p) (f : Node × Node → ℚ) :
    (q.G.edges.map (fun e => f e * p (.x e.1 e.2))).sum = ((q.chosen p).map f).sum := by
  have key : ∀ l : List (Node × Node), (∀ e ∈ l, e ∈ q.G.edges) →
      (l.map (fun e => f e * p (.x e.1 e.2))).sum =
        ((l.filter (fun e => p (.x e.1 e.2) > 1 / 2)).map f).sum := by
    intro l
    induction l with
    | nil => simp
    | cons e l ih =>
      intro hl
      have hih := ih (fun e' he' => hl e' (List.mem_cons_of_mem _ he'))
      rw [List.map_cons, List.sum_cons, hih, List.filter_cons]
      rcases h e (hl e List.mem_cons_self) with h0 | h0
      · rw [h0, if_neg (by norm_num)]; ring
      · rw [h0, if_pos (by norm_num)]; simp
  exact key _ (fun e he => he)

private theorem sum_sub (h : Binary q p) (l : List (Node × Node)) (hl : ∀ e ∈ l, e ∈ q.G.edges) :
    (l.map (fun e => p (.x e.1 e.2))).sum = (l.countP (fun e => e ∈ q.chosen p) : ℚ) := by
  induction l with
  | nil => simp
  | cons e l ih =>
    rw [List.map_cons, List.sum_cons, ih (fun e' he' => hl e' (List.mem_cons_of_mem _ he')), List.countP_cons,
      h.value (hl e List.mem_cons_self)]
    simp only [decide_eq_true_eq]
    split <;> push_cast <;> ring

theorem Binary.outFlow (h : Binary q p) (hG : WellFormed q.G) (v : Node) :
    ((q.outFlow v).map p).sum = (outDeg (q.chosen p) v : ℚ) := by
  have h1 : (q.outFlow v).map p = ((q.G.succ v).map (fun j => (v, j))).map (fun e => p (.x e.1 e.2)) := by
    simp [PricingLP.outFlow]
  rw [h1, sum_sub h _ (by
    intro e he
    obtain ⟨j, hj, rfl⟩ := List.mem_map.1 he
    exact (Net.mem_edges hG v j).2 hj)]
  congr 1
  rw [List.countP_eq_length_filter]
  unfold outDeg
  rw [List.countP_eq_length_filter]
  apply List.Perm.length_eq
  rw [List.perm_ext_iff_of_nodup]
  · rintro ⟨a, b⟩
    simp only [List.mem_filter, List.mem_map, decide_eq_true_eq, Prod.mk.injEq]
    constructor
    · rintro ⟨⟨j, hj, rfl, rfl⟩, h2⟩; exact ⟨h2, rfl⟩
    · rintro ⟨h2, rfl⟩
      exact ⟨⟨b, (Net.mem_edges hG a b).1 (mem_chosen.1 h2).1, rfl, rfl⟩, h2⟩
  · apply List.Nodup.filter
    exact (hG.succ_nodup v).map (fun a b hab => by simpa using hab)
  · exact ((net_edges_nodup hG).filter _).filter _

theorem Binary.inFlow (h : Binary q p) (hG : WellFormed q.G) (v : Node) :
    ((q.inFlow v).map p).sum = (inDeg (q.chosen p) v : ℚ) := by
  have hp : ∀ i, i ∈ q.G.preds v ↔ v ∈ q.G.succ i := by
    intro i
    simp only [Net.preds, Net.hasEdge, List.mem_filter, decide_eq_true_eq]
    exact ⟨fun h => h.2, fun h => ⟨(hG.edge_mem i v h).1, h⟩⟩
  have h1 : (q.inFlow v).map p = ((q.G.preds v).map (fun j => (j, v))).map (fun e => p (.x e.1 e.2)) := by
    simp [PricingLP.inFlow]
  rw [h1, sum_sub h _ (by
    intro e he
    obtain ⟨j, hj, rfl⟩ := List.mem_map.1 he
    exact (Net.mem_edges hG j v).2 ((hp j).1 hj))]
  congr 1
  rw [List.countP_eq_length_filter]
  unfold inDeg
  rw [List.countP_eq_length_filter]
  apply List.Perm.length_eq
  rw [List.perm_ext_iff_of_nodup]
  · rintro ⟨a, b⟩
    simp only [List.mem_filter, List.mem_map, decide_eq_true_eq, Prod.mk.injEq]
    constructor
    · rintro ⟨⟨j, hj, rfl, rfl⟩, h2⟩; exact ⟨h2, rfl⟩
    · rintro ⟨h2, rfl⟩
      exact ⟨⟨a, (hp a).2 ((Net.mem_edges hG a b).1 (mem_chosen.1 h2).1), rfl, rfl⟩, h2⟩
  · apply List.Nodup.filter
    exact (hG.nodes_nodup.filter _).map (fun a b hab => by simpa using hab)
  · exact ((net_edges_nodup hG).filter _).filter _

/-- The chosen edges are a unit flow. -/
theorem FlowPoint.unitFlow (h : FlowPoint q p) (hG : WellFormed q.G) : UnitFlow (q.chosen p) := by
  refine ⟨(net_edges_nodup hG).filter _, ?_, ?_, ?_, ?_, ?_⟩
  · intro v h1 h2
    by_cases hv : v ∈ q.G.nodes
    · have := h.balance v (mem_customers.2 ⟨hv, h1, h2⟩)
      rw [h.binary.inFlow hG, h.binary.outFlow hG] at this
      exact_mod_cast this
    · have ho : outDeg (q.chosen p) v = 0 := by
        by_contra hc
        obtain ⟨w, hw⟩ := outDeg_pos_iff.1 (Nat.pos_of_ne_zero hc)
        exact hv (hG.edge_mem v w ((Net.mem_edges hG v w).1 (mem_chosen.1 hw).1)).1
      have hi : inDeg (q.chosen p) v = 0 := by
        by_contra hc
        obtain ⟨w, hw⟩ := inDeg_pos_iff.1 (Nat.pos_of_ne_zero hc)
        exact hv (hG.edge_mem w v ((Net.mem_edges hG w v).1 (mem_chosen.1 hw).1)).2
      rw [ho, hi]
  · have := h.source
    rw [h.binary.outFlow hG] at this
    exact_mod_cast this
  · have := h.sink
    rw [h.binary.inFlow hG] at this
    exact_mod_cast this
  · by_contra hc
    obtain ⟨w, hw⟩ := inDeg_pos_iff.1 (Nat.pos_of_ne_zero hc)
    exact hG.no_into_source w ((Net.mem_edges hG w _).1 (mem_chosen.1 hw).1)
  · by_contra hc
    obtain ⟨w, hw⟩ := outDeg_pos_iff.1 (Nat.pos_of_ne_zero hc)
    have := (Net.mem_edges hG _ w).1 (mem_chosen.1 hw).1
    rw [hG.no_out_of_sink] at this
    cases this

/-- With ranks, the chosen edges have increasing rank. -/
theorem rank_lt (h : (q.lp cap).Feasible p) (hr : q.ranked = true) {e : Node × Node} (he : e ∈ q.chosen p) :
    p (.y e.1) < p (.y e.2) := by
  have hf := flowPoint h
  have he' := (mem_chosen.1 he).1
  have := h.constrs ⟨[(1, .y e.1), (-1, .y e.2), ((q.G.nodes.length : ℚ), .x e.1 e.2)], .le,
      (q.G.nodes.length : ℚ) - 1⟩ (by
    simp only [lp, hr, if_true, List.mem_append]
    left; left; right
    simp only [rankConstrs, List.mem_append]
    left; left
    exact List.mem_map.2 ⟨e, he', rfl⟩)
  simp only [Constr.Holds, eval_cons, eval_nil, hf.binary.value he', if_pos he] at this
  linarith

/-- With ranks, the chosen edges are the legs of one simple route. -/
theorem ranked_route (h : (q.lp cap).Feasible p) (hG : WellFormed q.G) (hr : q.ranked = true) :
    ∃ mid, mid ≠ [] ∧ IsSimpleRoute q.G (routeOf mid) ∧ (q.chosen p).Perm (consecutive (routeOf mid)) := by
  have hf := flowPoint h
  have hu := hf.unitFlow hG
  obtain ⟨mid, hnd, hm1, hm2, hsub, hbal, _⟩ := hu.decompose
  have hnil := hbal.eq_nil_of_rank (fun v => p (.y v)) (fun e he => rank_lt h hr (List.mem_filter.1 he).1)
  have hperm := split_perm hu.nodup (consecutive_nodup hnd) hsub
  rw [hnil, List.append_nil] at hperm
  have hin : ∀ u v, (u, v) ∈ consecutive (routeOf mid) → v ∈ q.G.succ u := fun u v huv =>
    (Net.mem_edges hG u v).1 (mem_chosen.1 (hsub _ huv)).1
  refine ⟨mid, ?_, ⟨⟨mid, rfl, ?_, (along_iff _ _).2 hin⟩, hnd⟩, hperm⟩
  · rintro rfl
    have h2 := hf.two
    have h3 := hf.binary.sum (fun _ => 1)
    simp only [one_mul] at h3
    rw [h3] at h2
    have h4 : (q.chosen p).length = 1 := by
      rw [hperm.length_eq]; rfl
    simp [h4] at h2
  · intro v hv
    refine ⟨?_, ?_⟩
    · cases v with
      | source => exact absurd hv hm1
      | sink => exact absurd hv hm2
      | cust n => exact ⟨n, rfl⟩
    · obtain ⟨u, hu⟩ := pred_of_mem (mid ++ [Node.sink]) .source (List.mem_append_left _ hv)
      exact (hG.edge_mem u v (hin u v hu)).2

theorem formulate_inv {prob : LP PVar} (h : q.formulate = .ok prob) :
    ∃ cap, prob = q.lp cap ∧
      ((q.caps ≠ [] ∨ q.pickupDelivery = true ∨ q.distributionCollection = true) →
        q.caps[q.vehicleType]? = some cap) := by
  unfold formulate at h
  split at h
  · rename_i hc
    unfold capacity at h
    split at h
    · cases h
    · rename_i e c heq
      split at h
      · cases h
      · simp only [Except.ok.injEq] at h
        refine ⟨_, h.symm, fun _ => ?_⟩
        split at heq
        · cases heq
        · split at heq
          · cases heq
          · rename_i hh
            simp only [Except.ok.injEq] at heq
            rw [hh, heq]
  · rename_i hc
    simp only [Except.ok.injEq] at h
    exact ⟨0, h.symm, fun h' => absurd h' hc⟩

/-- With pickup and delivery, the deliveries of all pickups are in the graph searched. -/
theorem requests_present {prob : LP PVar} (h : q.formulate = .ok prob) (hpd : q.pickupDelivery = true) :
    ∀ r ∈ q.requests, r.2 ∈ q.G.nodes := by
  unfold formulate at h
  rw [if_pos (Or.inr (Or.inl hpd))] at h
  split at h
  · cases h
  · split at h
    · cases h
    · rename_i hn
      push Not at hn
      exact hn hpd

theorem sum_chosen (hf : Binary q p) {r : List Node} (hperm : (q.chosen p).Perm (consecutive r))
    (f : Node × Node → ℚ) :
    (q.G.edges.map (fun e => f e * p (.x e.1 e.2))).sum = legSum (fun u v => f (u, v)) r := by
  rw [hf.sum, (hperm.map f).sum_eq, legSum_eq]

theorem legSum_head (f : Node → ℚ) (a : Node) (l : List Node) :
    legSum (fun _ v => f v) (a :: l) = (l.map f).sum := by
  induction l generalizing a with
  | nil => simp [legSum]
  | cons b l ih => rw [legSum_cons_cons, ih, List.map_cons, List.sum_cons]

theorem legSum_tail (f : Node → ℚ) (l : List Node) : legSum (fun u _ => f u) l = (l.dropLast.map f).sum := by
  have := legSum_sub (fun _ _ => 0) (fun u => -f u) l
  simp only [zero_sub, neg_neg] at this
  rw [this]
  have h0 : legSum (fun _ _ => (0 : ℚ)) l = 0 := by
    rw [legSum_eq]; simp
  rw [h0]
  induction l.dropLast with
  | nil => simp
  | cons a t ih => simp at ih ⊢; linarith

theorem legSum_add (f g : Node → Node → ℚ) (l : List Node) :
    legSum (fun u v => f u v + g u v) l = legSum f l + legSum g l := by
  rw [legSum_eq, legSum_eq, legSum_eq, ← List.sum_map_add]

theorem legSum_one (mid : List Node) : legSum (fun _ _ => 1) (routeOf mid) = (mid.length : ℚ) + 1 := by
  rw [routeOf, legSum_head]
  simp

theorem arrivals_le {G : Net} (t : Node → ℚ) : ∀ (rest : List Node) (u : Node) (a : ℚ), a ≤ t u →
    (∀ i j, (i, j) ∈ consecutive (u :: rest) → t i + G.service i + G.time i j ≤ t j) →
    (∀ v ∈ rest, G.lower v ≤ t v ∧ t v ≤ G.upper v) →
    ∀ pr ∈ rest.zip (arrivalsFrom G a u rest), pr.2 ≤ G.upper pr.1
  | [], _, _, _, _, _ => by simp
  | v :: rest, u, a, ha, hleg, hwin => by
    intro pr hpr
    have hv : max (a + G.service u + G.time u v) (G.lower v) ≤ t v := by
      have h1 := hleg u v (by simp)
      have h2 := (hwin v List.mem_cons_self).1
      exact max_le (by linarith) h2
    simp only [arrivalsFrom, List.zip_cons_cons, List.mem_cons] at hpr
    rcases hpr with rfl | hpr
    · exact le_trans hv (hwin v List.mem_cons_self).2
    · refine arrivals_le t rest v _ hv ?_ ?_ pr hpr
      · intro i j hij
        exact hleg i j (by rw [consecutive_cons_cons]; exact List.mem_cons_of_mem _ hij)
      · intro w hw
        exact hwin w (List.mem_cons_of_mem _ hw)

theorem onTime_of_feasible (hG : WellFormed q.G) (h : (q.lp cap).Feasible p) (htw : q.timeWindows = true)
    {mid : List Node} (hr : IsSimpleRoute q.G (routeOf mid)) (hperm : (q.chosen p).Perm (consecutive (routeOf mid))) :
    OnTime q.G (routeOf mid) := by
  have hf := flowPoint h
  have hc : ∀ c ∈ q.timeConstrs, c.Holds p := by
    intro c hc
    apply h.constrs
    simp [lp, htw, hc]
  have hlow : ∀ v ∈ q.G.nodes, q.G.lower v ≤ p (.t v) ∧ p (.t v) ≤ q.G.upper v := by
    intro v hv
    have h1 := hc ⟨[(1, .t v)], .ge, q.G.lower v⟩ (by
      simp only [timeConstrs, List.mem_append]
      right
      exact List.mem_map.2 ⟨v, hv, rfl⟩)
    have h2 := hc ⟨[(1, .t v)], .le, q.G.upper v⟩ (by
      simp only [timeConstrs, List.mem_append]
      left; right
      exact List.mem_map.2 ⟨v, hv, rfl⟩)
    simp only [Constr.Holds, eval_cons, eval_nil, one_mul, add_zero] at h1 h2
    exact ⟨h1, h2⟩
  have halong := (along_iff _ _).1 hr.1.choose_spec.2.2
  have hmem : ∀ v ∈ mid ++ [Node.sink], v ∈ q.G.nodes := by
    intro v hv
    obtain ⟨u, hu⟩ := pred_of_mem (mid ++ [Node.sink]) .source hv
    exact (hG.edge_mem u v (halong u v hu)).2
  unfold OnTime
  simp only [routeOf]
  apply arrivals_le (fun v => p (.t v))
  · exact (hlow _ hG.source_mem).1
  · intro i j hij
    have he : (i, j) ∈ q.chosen p := hperm.mem_iff.2 hij
    have he' := (mem_chosen.1 he).1
    have := hc ⟨[(1, .t i), (-1, .t j), (q.G.upper .sink, .x i j)], .le,
        q.G.upper .sink - q.G.service i - q.G.time i j⟩ (by
      simp only [timeConstrs, List.mem_append]
      left; left
      exact List.mem_map.2 ⟨(i, j), he', rfl⟩)
    simp only [Constr.Holds, eval_cons, eval_nil] at this
    have hv := hf.binary.value he'
    simp only [if_pos he] at hv
    rw [hv] at this
    linarith
  · intro v hv
    exact hlow v (hmem v hv)

/-- The limits hold for any point whose chosen edges are those of a route. -/
theorem limits_of_feasible (hd : q.G.demand .source = 0) (hs : q.G.service .sink = 0)
    (hcap : q.caps ≠ [] → q.caps[q.vehicleType]? = some cap) (h : (q.lp cap).Feasible p)
    {mid : List Node} (hmid : ∀ v ∈ mid, v ∈ q.G.customers) (hperm : (q.chosen p).Perm (consecutive (routeOf mid))) :
    WithinStops q.numStops (stops (routeOf mid)).length ∧
      WithinCapacity q.caps q.vehicleType (load q.G (routeOf mid)) ∧
      Within q.duration (Spec.duration q.G (routeOf mid)) := by
  have hf := flowPoint h
  refine ⟨?_, ?_, ?_⟩
  · intro m hm hm0
    obtain ⟨n, rfl⟩ := Nat.exists_eq_succ_of_ne_zero hm0
    have := h.constrs (q.stopsConstr (n + 1)) (by simp [lp, hm])
    simp only [Constr.Holds, stopsConstr, eval_map] at this
    rw [sum_chosen hf.binary hperm (fun _ => 1), legSum_one] at this
    rw [stops_routeOf hmid]
    have h1 : (mid.length : ℚ) ≤ (n + 1 : Nat) := by linarith
    exact_mod_cast h1
  · intro hne
    refine ⟨cap, hcap hne, ?_⟩
    have := h.constrs (q.loadConstr cap) (by simp [lp, hne])
    simp only [Constr.Holds, loadConstr, eval_map] at this
    rw [sum_chosen hf.binary hperm (fun e => q.G.demand e.2)] at this
    rw [routeOf, legSum_head] at this
    simp only [load, routeOf, List.map_cons, List.sum_cons, hd, zero_add]
    exact this
  · intro d hd' hd0
    have := h.constrs (q.durationConstr d) (by
      have : active q.duration = some d := active_eq_some.2 ⟨hd', hd0⟩
      simp [lp, this])
    simp only [Constr.Holds, durationConstr, eval_map] at this
    rw [sum_chosen hf.binary hperm (fun e => q.G.time e.1 e.2 + q.G.service e.1)] at this
    rw [legSum_add (fun u v => q.G.time u v) (fun u _ => q.G.service u), legSum_tail] at this
    have hdrop : (routeOf mid).dropLast = .source :: mid := by
      simp [routeOf, List.dropLast_cons_of_ne_nil]
    rw [hdrop] at this
    simp only [Spec.duration, travel, routeOf, List.map_cons, List.sum_cons, List.map_append, List.sum_append, List.map_nil,
      List.sum_nil, hs] at this ⊢
    linarith

end PricingLP

end Vrpy
