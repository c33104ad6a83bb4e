import Verif.Proofs.GoodsRoute
import Verif.Proofs.PricingVariants
import Mathlib.Algebra.BigOperators.Ring.Finset

/-!
# The goods of a feasible point of the pricing problem
-/

namespace Vrpy

open Spec

namespace Goods

/-- Summation by nodes. -/
theorem sum_by_nodes {U : Finset (Node × Node)} (F : Node × Node → ℚ) (π : Node → ℚ) {V : Finset Node}
    (h1 : ∀ e ∈ U, e.1 ∈ V) (h2 : ∀ e ∈ U, e.2 ∈ V) :
    ∑ e ∈ U, F e * (π e.1 - π e.2) =
      ∑ v ∈ V, π v * (∑ e ∈ U with e.1 = v, F e - ∑ e ∈ U with e.2 = v, F e) := by
  have e1 := Finset.sum_fiberwise_of_maps_to h1 (fun e => F e * π e.1)
  have e2 := Finset.sum_fiberwise_of_maps_to h2 (fun e => F e * π e.2)
  have e3 : ∑ e ∈ U, F e * (π e.1 - π e.2) = ∑ e ∈ U, F e * π e.1 - ∑ e ∈ U, F e * π e.2 := by
    rw [← Finset.sum_sub_distrib]
    exact Finset.sum_congr rfl (fun e _ => by ring)
  rw [e3, ← e1, ← e2, ← Finset.sum_sub_distrib]
  refine Finset.sum_congr rfl (fun v _ => ?_)
  rw [mul_sub, Finset.mul_sum, Finset.mul_sum]
  congr 1 <;> refine Finset.sum_congr rfl (fun e he => ?_) <;> rw [(Finset.mem_filter.1 he).2] <;> ring

theorem sum_by_heads {U : Finset (Node × Node)} (c π : Node → ℚ) {V : Finset Node} (h2 : ∀ e ∈ U, e.2 ∈ V) :
    ∑ e ∈ U, c e.2 * π e.2 = ∑ v ∈ V, π v * ∑ e ∈ U with e.2 = v, c v := by
  rw [← Finset.sum_fiberwise_of_maps_to h2 (fun e => c e.2 * π e.2)]
  refine Finset.sum_congr rfl (fun v _ => ?_)
  rw [Finset.mul_sum]
  refine Finset.sum_congr rfl (fun e he => ?_)
  rw [(Finset.mem_filter.1 he).2]
  ring

end Goods

namespace PricingLP

variable {q : PricingLP} {cap : ℚ} {p : PVar → ℚ}

theorem sum_into (hG : WellFormed q.G) (F : Node → Node → ℚ) (hF : ∀ u v, v ∈ q.G.succ u → (u, v) ∉ q.chosen p → F u v = 0)
    (v : Node) : ((q.G.preds v).map (fun u => F u v)).sum = ∑ e ∈ (q.chosen p).toFinset with e.2 = v, F e.1 e.2 := by
  have hnd : (q.G.preds v).Nodup := hG.nodes_nodup.filter _
  rw [← List.sum_toFinset _ hnd]
  rw [← Finset.sum_image (s := (q.G.preds v).toFinset) (g := fun u => (u, v)) (f := fun e => F e.1 e.2)
    (fun a _ b _ hab => (Prod.mk.inj hab).1)]
  symm
  refine Finset.sum_subset ?_ ?_
  · rintro ⟨a, b⟩ he
    simp only [Finset.mem_filter, List.mem_toFinset] at he
    obtain ⟨he, rfl⟩ := he
    have := (Net.mem_edges hG a b).1 (mem_chosen.1 he).1
    exact Finset.mem_image.2 ⟨a, List.mem_toFinset.2 ((Net.mem_preds hG).2 this), rfl⟩
  · rintro ⟨a, b⟩ he hn
    obtain ⟨u, hu, hx⟩ := Finset.mem_image.1 he
    obtain ⟨rfl, rfl⟩ := Prod.mk.inj hx
    refine hF _ _ ((Net.mem_preds hG).1 (List.mem_toFinset.1 hu)) (fun hc => hn ?_)
    simp [hc]

theorem sum_from (hG : WellFormed q.G) (F : Node → Node → ℚ) (hF : ∀ u v, v ∈ q.G.succ u → (u, v) ∉ q.chosen p → F u v = 0)
    (v : Node) : ((q.G.succ v).map (fun u => F v u)).sum = ∑ e ∈ (q.chosen p).toFinset with e.1 = v, F e.1 e.2 := by
  rw [← List.sum_toFinset _ (hG.succ_nodup v)]
  rw [← Finset.sum_image (s := (q.G.succ v).toFinset) (g := fun u => (v, u)) (f := fun e => F e.1 e.2)
    (fun a _ b _ hab => (Prod.mk.inj hab).2)]
  symm
  refine Finset.sum_subset ?_ ?_
  · rintro ⟨a, b⟩ he
    simp only [Finset.mem_filter, List.mem_toFinset] at he
    obtain ⟨he, rfl⟩ := he
    exact Finset.mem_image.2 ⟨b, List.mem_toFinset.2 ((Net.mem_edges hG a b).1 (mem_chosen.1 he).1), rfl⟩
  · rintro ⟨a, b⟩ he hn
    obtain ⟨u, hu, hx⟩ := Finset.mem_image.1 he
    obtain ⟨rfl, rfl⟩ := Prod.mk.inj hx
    refine hF _ _ (List.mem_toFinset.1 hu) (fun hc => hn ?_)
    simp [hc]

/-- The amount at a customer; depots do not take part. -/
def atCustomers (q : PricingLP) (F : Node → ℚ) (v : Node) : ℚ := if v ∈ q.G.customers then F v else 0

theorem atCustomers_nonneg {F : Node → ℚ} (hF : ∀ v ∈ q.G.nodes, 0 ≤ F v) (v : Node) : 0 ≤ q.atCustomers F v := by
  unfold atCustomers
  split
  · rename_i hv; exact hF v (mem_customers.1 hv).1
  · exact le_rfl

/-- The goods in a feasible point. -/
theorem carried_of_feasible (hG : WellFormed q.G) (hdc : q.distributionCollection = true)
    (hdem : ∀ v ∈ q.G.nodes, 0 ≤ q.G.demand v) (hcol : ∀ v ∈ q.G.nodes, 0 ≤ q.G.collect v) (h : (q.lp cap).Feasible p) :
    Goods.Carried (q.chosen p).toFinset cap (q.atCustomers q.G.collect) (q.atCustomers q.G.demand)
      (fun e => p (.loadE e.1 e.2)) (fun e => p (.unloadE e.1 e.2)) := by
  have hf := flowPoint h
  have hc : ∀ c ∈ q.dcConstrs cap, c.Holds p := by
    intro c hc
    apply h.constrs
    simp [lp, hdc, hc]
  have hnn : ∀ i j, j ∈ q.G.succ i → 0 ≤ p (.unloadE i j) ∧ 0 ≤ p (.loadE i j) := by
    intro i j hij
    have he := (Net.mem_edges hG i j).2 hij
    have h1 := h.vars { var := .unloadE i j, lo := some 0, up := some cap } (by
      simp only [lp, hdc, if_true, List.mem_append]
      right
      simp only [dcVars, List.mem_append]
      left
      exact List.mem_map.2 ⟨(i, j), he, rfl⟩)
    have h2 := h.vars { var := .loadE i j, lo := some 0, up := some cap } (by
      simp only [lp, hdc, if_true, List.mem_append]
      right
      simp only [dcVars, List.mem_append]
      right
      exact List.mem_map.2 ⟨(i, j), he, rfl⟩)
    exact ⟨h1.1 0 rfl, h2.1 0 rfl⟩
  have hsum : ∀ i j, j ∈ q.G.succ i → p (.loadE i j) + p (.unloadE i j) ≤ cap * p (.x i j) := by
    intro i j hij
    have he := (Net.mem_edges hG i j).2 hij
    have := hc ⟨[(1, .loadE i j), (1, .unloadE i j), (-cap, .x i j)], .le, 0⟩ (by
      simp only [dcConstrs, List.mem_append]
      right
      exact List.mem_map.2 ⟨(i, j), he, rfl⟩)
    simp only [Constr.Holds, eval_cons, eval_nil] at this
    linarith
  have hval : ∀ i j, j ∈ q.G.succ i → p (.x i j) = if (i, j) ∈ q.chosen p then 1 else 0 := fun i j hij =>
    hf.binary.value ((Net.mem_edges hG i j).2 hij)
  have hzero : ∀ i j, j ∈ q.G.succ i → (i, j) ∉ q.chosen p → p (.x i j) = 0 ∧ p (.unloadE i j) = 0 ∧ p (.loadE i j) = 0 := by
    intro i j hij hn
    have h1 := hval i j hij
    rw [if_neg hn] at h1
    have h2 := hsum i j hij
    rw [h1] at h2
    have h3 := hnn i j hij
    exact ⟨h1, by linarith [h3.1, h3.2], by linarith [h3.1, h3.2]⟩
  have hsucc : ∀ e ∈ (q.chosen p).toFinset, e.2 ∈ q.G.succ e.1 := by
    rintro ⟨a, b⟩ he
    exact (Net.mem_edges hG a b).1 (mem_chosen.1 (List.mem_toFinset.1 he)).1
  have hV1 : ∀ e ∈ (q.chosen p).toFinset, e.1 ∈ q.G.nodes.toFinset := fun e he =>
    List.mem_toFinset.2 (hG.edge_mem _ _ (hsucc e he)).1
  have hV2 : ∀ e ∈ (q.chosen p).toFinset, e.2 ∈ q.G.nodes.toFinset := fun e he =>
    List.mem_toFinset.2 (hG.edge_mem _ _ (hsucc e he)).2
  have hnoin : ∀ e ∈ (q.chosen p).toFinset, e.2 ≠ .source := by
    intro e he hs
    exact hG.no_into_source e.1 (hs ▸ hsucc e he)
  have hnoout : ∀ e ∈ (q.chosen p).toFinset, e.1 ≠ .sink := by
    intro e he hs
    have := hsucc e he
    rw [hs, hG.no_out_of_sink] at this
    cases this
  have hS : (q.chosen p).toFinset.filter (fun e => e.2 = .source) = ∅ :=
    Finset.filter_eq_empty_iff.2 (fun e he => hnoin e he)
  have hT : (q.chosen p).toFinset.filter (fun e => e.1 = .sink) = ∅ :=
    Finset.filter_eq_empty_iff.2 (fun e he => hnoout e he)
  have hone : ∀ e ∈ (q.chosen p).toFinset, p (.x e.1 e.2) = 1 := by
    rintro ⟨a, b⟩ he
    have h1 := hval a b (hsucc _ he)
    rw [if_pos (List.mem_toFinset.1 he)] at h1
    exact h1
  have hx0 : ∀ u v, v ∈ q.G.succ u → (u, v) ∉ q.chosen p → p (.x u v) = 0 := fun u v h1 h2 => (hzero u v h1 h2).1
  have hcust : ∀ v ∈ q.G.nodes.toFinset, v ≠ .source → v ≠ .sink → v ∈ q.G.customers := fun v hv h1 h2 =>
    mem_customers.2 ⟨List.mem_toFinset.1 hv, h1, h2⟩
  -- the constraints at a customer
  have hgoods : ∀ v ∈ q.G.customers,
      ∑ e ∈ (q.chosen p).toFinset with e.2 = v, q.G.demand v =
        ∑ e ∈ (q.chosen p).toFinset with e.2 = v, p (.unloadE e.1 e.2) -
          ∑ e ∈ (q.chosen p).toFinset with e.1 = v, p (.unloadE e.1 e.2) ∧
      ∑ e ∈ (q.chosen p).toFinset with e.2 = v, q.G.collect v =
        ∑ e ∈ (q.chosen p).toFinset with e.1 = v, p (.loadE e.1 e.2) -
          ∑ e ∈ (q.chosen p).toFinset with e.2 = v, p (.loadE e.1 e.2) := by
    intro v hv
    have c1 := hc _ (by
      simp only [dcConstrs, List.mem_append]
      left; left
      exact List.mem_map.2 ⟨v, hv, rfl⟩)
    have c2 := hc _ (by
      simp only [dcConstrs, List.mem_append]
      left; right
      exact List.mem_map.2 ⟨v, hv, rfl⟩)
    simp only [Constr.Holds, eval_append, eval_neg, eval_lpSum, eval_map, List.map_map, Function.comp_def] at c1 c2
    rw [sum_into hG (fun u v' => q.G.demand v * p (.x u v')) (fun u v' h1 h2 => by rw [hx0 u v' h1 h2, mul_zero]) v,
      sum_into hG (fun u v' => p (.unloadE u v')) (fun u v' h1 h2 => (hzero u v' h1 h2).2.1) v,
      sum_from hG (fun u v' => p (.unloadE u v')) (fun u v' h1 h2 => (hzero u v' h1 h2).2.1) v] at c1
    rw [sum_into hG (fun u v' => q.G.collect v * p (.x u v')) (fun u v' h1 h2 => by rw [hx0 u v' h1 h2, mul_zero]) v,
      sum_into hG (fun u v' => p (.loadE u v')) (fun u v' h1 h2 => (hzero u v' h1 h2).2.2) v,
      sum_from hG (fun u v' => p (.loadE u v')) (fun u v' h1 h2 => (hzero u v' h1 h2).2.2) v] at c2
    have k : ∀ a : ℚ, ∑ e ∈ (q.chosen p).toFinset with e.2 = v, a * p (.x e.1 e.2) =
        ∑ e ∈ (q.chosen p).toFinset with e.2 = v, a := fun a =>
      Finset.sum_congr rfl (fun e he => by rw [hone e (Finset.mem_filter.1 he).1, mul_one])
    rw [k] at c1 c2
    constructor <;> linarith
  have hat : ∀ (F : Node → ℚ) (v : Node), ∑ e ∈ (q.chosen p).toFinset with e.2 = v, q.atCustomers F v =
      if v ∈ q.G.customers then ∑ e ∈ (q.chosen p).toFinset with e.2 = v, F v else 0 := by
    intro F v
    unfold atCustomers
    split <;> simp
  refine ⟨?_, hnoin, hnoout, ?_, ?_, ?_, atCustomers_nonneg hcol, atCustomers_nonneg hdem⟩
  · intro π
    have h1 := Goods.sum_by_nodes (fun e => p (.x e.1 e.2)) (fun v => -π v) hV1 hV2
    have h2 : ∑ e ∈ (q.chosen p).toFinset, (π e.2 - π e.1) =
        ∑ e ∈ (q.chosen p).toFinset, p (.x e.1 e.2) * (-π e.1 - -π e.2) :=
      Finset.sum_congr rfl (fun e he => by rw [hone e he]; ring)
    rw [h2, h1]
    have hdeg : ∀ v, ∑ e ∈ (q.chosen p).toFinset with e.1 = v, p (.x e.1 e.2) = ((q.outFlow v).map p).sum := by
      intro v
      rw [← sum_from hG (fun u v' => p (.x u v')) hx0 v]
      simp [PricingLP.outFlow, Function.comp_def]
    have hdeg' : ∀ v, ∑ e ∈ (q.chosen p).toFinset with e.2 = v, p (.x e.1 e.2) = ((q.inFlow v).map p).sum := by
      intro v
      rw [← sum_into hG (fun u v' => p (.x u v')) hx0 v]
      simp [PricingLP.inFlow, Function.comp_def]
    have h3 : ∀ v ∈ q.G.nodes.toFinset,
        -π v * (∑ e ∈ (q.chosen p).toFinset with e.1 = v, p (.x e.1 e.2) -
          ∑ e ∈ (q.chosen p).toFinset with e.2 = v, p (.x e.1 e.2)) =
        (if v = .sink then π v else 0) - (if v = .source then π v else 0) := by
      intro v hv
      by_cases g1 : v = .source
      · subst g1
        rw [hS, hdeg, hf.source]
        simp
      · by_cases g2 : v = .sink
        · subst g2
          rw [hT, hdeg', hf.sink]
          simp
        · rw [hdeg, hdeg', hf.balance v (hcust v hv g1 g2)]
          simp [g1, g2]
    rw [Finset.sum_congr rfl h3, Finset.sum_sub_distrib, Finset.sum_ite_eq', Finset.sum_ite_eq',
      if_pos (List.mem_toFinset.2 hG.sink_mem), if_pos (List.mem_toFinset.2 hG.source_mem)]
  · intro π hπ hsink
    rw [Goods.sum_by_heads _ π hV2, Goods.sum_by_nodes _ π hV1 hV2]
    refine Finset.sum_le_sum (fun v hv => ?_)
    by_cases g2 : v = .sink
    · subst g2; rw [hsink]; simp
    refine mul_le_mul_of_nonneg_left ?_ (hπ v)
    rw [hat]
    by_cases g1 : v = .source
    · subst g1
      rw [hS, if_neg (fun hx => (mem_customers.1 hx).2.1 rfl), Finset.sum_empty, sub_zero]
      exact Finset.sum_nonneg (fun e he => (hnn _ _ (hsucc e (Finset.mem_filter.1 he).1)).2)
    · have hv' := hcust v hv g1 g2
      rw [if_pos hv', (hgoods v hv').2]
  · intro π hπ hsource
    have h1 := Goods.sum_by_nodes (fun e => p (.unloadE e.1 e.2)) (fun v => -π v) hV1 hV2
    have h2 : ∑ e ∈ (q.chosen p).toFinset, p (.unloadE e.1 e.2) * (π e.2 - π e.1) =
        ∑ e ∈ (q.chosen p).toFinset, p (.unloadE e.1 e.2) * (-π e.1 - -π e.2) :=
      Finset.sum_congr rfl (fun e _ => by ring)
    rw [Goods.sum_by_heads _ π hV2, h2, h1]
    refine Finset.sum_le_sum (fun v hv => ?_)
    by_cases g1 : v = .source
    · subst g1; rw [hsource]; simp
    have h3 : ∀ a b : ℚ, -π v * (a - b) = π v * (b - a) := fun a b => by ring
    rw [h3]
    refine mul_le_mul_of_nonneg_left ?_ (hπ v)
    rw [hat]
    by_cases g2 : v = .sink
    · subst g2
      rw [hT, if_neg (fun hx => (mem_customers.1 hx).2.2 rfl), Finset.sum_empty, sub_zero]
      exact Finset.sum_nonneg (fun e he => (hnn _ _ (hsucc e (Finset.mem_filter.1 he).1)).1)
    · have hv' := hcust v hv g1 g2
      rw [if_pos hv', (hgoods v hv').1]
  · intro e he
    have h1 := hsum _ _ (hsucc e he)
    rw [hone e he, mul_one] at h1
    exact h1

/-- With distribution and collection, one of the routes in a feasible point carries its own goods. -/
theorem light_route_of_feasible (hG : WellFormed q.G) (hdem : ∀ v ∈ q.G.nodes, 0 ≤ q.G.demand v)
    (hdc : q.distributionCollection = true → (∀ v ∈ q.G.nodes, 0 ≤ q.G.collect v) ∧ q.G.collect .source = 0 ∧
      q.G.demand .sink = 0) (h : (q.lp cap).Feasible p) :
    ∃ mid R, IsSimpleRoute q.G (routeOf mid) ∧ (q.chosen p).Perm (consecutive (routeOf mid) ++ R) ∧ Balanced R ∧
      R.Nodup ∧ (∀ e ∈ R, e.2 ∈ q.G.succ e.1) ∧ (q.distributionCollection = true → DcOk q (routeOf mid) cap) := by
  by_cases hb : q.distributionCollection = true
  · obtain ⟨hcol, hsource, hsink⟩ := hdc hb
    obtain ⟨mid, hp, hm1, hm2, hgoods⟩ := Goods.light_route ((flowPoint h).unitFlow hG)
      (carried_of_feasible hG hb hdem hcol h) (by
        unfold atCustomers
        rw [if_neg (fun hx => (mem_customers.1 hx).2.1 rfl)])
    obtain ⟨R, hr, hperm, hbal, hnd, hR⟩ := route_and_cycles_at hG h hp hp.2.2.1 hm1 hm2
    refine ⟨mid, R, hr, hperm, hbal, hnd, hR, fun _ => ⟨hdem, hcol, ?_⟩⟩
    intro pre post hpp h1 h2
    have hcust := route_customers hr.1
    have hmem : ∀ v ∈ routeOf mid, v = .source ∨ v = .sink ∨ v ∈ q.G.customers := by
      intro v hv
      simp only [routeOf, List.mem_cons, List.mem_append, List.not_mem_nil, or_false] at hv
      rcases hv with hv | hv | hv
      · exact Or.inl hv
      · exact Or.inr (Or.inr (hcust v hv))
      · exact Or.inr (Or.inl hv)
    obtain ⟨pre', rfl⟩ : ∃ pre', pre = .source :: pre' := by
      cases pre with
      | nil => exact absurd rfl h1
      | cons a pre' =>
        simp only [routeOf, List.cons_append, List.cons.injEq] at hpp
        exact ⟨pre', by rw [hpp.1]⟩
    have hnd' := hp.2.2.1
    rw [hpp] at hnd'
    have hlast : Node.sink ∈ post := by
      have hl : (routeOf mid).getLast? = post.getLast? := by
        rw [hpp]
        exact List.getLast?_append_of_ne_nil _ h2
      have hs : (routeOf mid).getLast? = some .sink := by
        unfold routeOf
        rw [← List.cons_append, List.getLast?_concat]
      rw [hs] at hl
      exact List.mem_of_getLast? hl.symm
    have hdisj : Node.sink ∉ Node.source :: pre' := fun hx => (List.nodup_append.1 hnd').2.2 _ hx _ hlast rfl
    have hdisj' : Node.source ∉ post := fun hx => (List.nodup_append.1 hnd').2.2 _ List.mem_cons_self _ hx rfl
    have e1 : (Node.source :: pre').map q.G.collect = (Node.source :: pre').map (q.atCustomers q.G.collect) := by
      refine List.map_congr_left (fun v hv => ?_)
      unfold atCustomers
      rcases hmem v (by rw [hpp]; exact List.mem_append_left _ hv) with rfl | rfl | hc
      · rw [if_neg (fun hx => (mem_customers.1 hx).2.1 rfl), hsource]
      · exact absurd hv hdisj
      · rw [if_pos hc]
    have e2 : post.map q.G.demand = post.map (q.atCustomers q.G.demand) := by
      refine List.map_congr_left (fun v hv => ?_)
      unfold atCustomers
      rcases hmem v (by rw [hpp]; exact List.mem_append_right _ hv) with rfl | rfl | hc
      · exact absurd hv hdisj'
      · rw [if_neg (fun hx => (mem_customers.1 hx).2.2 rfl), hsink]
      · rw [if_pos hc]
    have := hgoods _ post hpp h1 h2
    unfold load
    rw [e1, e2]
    exact this
  · obtain ⟨mid, R, h1, h2, h3, h4, h5⟩ := route_and_cycles hG h
    exact ⟨mid, R, h1, h2, h3, h4, h5, fun hx => absurd hx hb⟩

end PricingLP

end Vrpy
