import Verif.Proofs.PricingPoint
import Mathlib.Data.Rat.Lemmas

/-!
# Pricing with loads, and without ranks
-/

namespace Vrpy

open Spec

instance {V : Type} (c : Constr V) (x : V → ℚ) : Decidable (c.Holds x) := by
  unfold Constr.Holds
  cases c.sense <;> infer_instance

theorem holds_iff {V : Type} (d : VarDecl V) (x : V → ℚ) :
    d.Holds x ↔ (∀ a ∈ d.lo, a ≤ x d.var) ∧ (∀ b ∈ d.up, x d.var ≤ b) ∧ (d.isInt = true → (x d.var).den = 1) := by
  unfold VarDecl.Holds
  have h : (∃ z : Int, x d.var = z) ↔ (x d.var).den = 1 := by
    constructor
    · rintro ⟨z, hz⟩; rw [hz]; exact Rat.den_intCast z
    · intro h; exact ⟨(x d.var).num, ((Rat.den_eq_one_iff _).1 h).symm⟩
  simp only [h, Option.mem_def]

instance {V : Type} (d : VarDecl V) (x : V → ℚ) : Decidable (d.Holds x) := decidable_of_iff' _ (holds_iff d x)

/-- Feasibility of a given point can be computed. -/
theorem feasible_of {V : Type} (P : LP V) (x : V → ℚ)
    (h : (∀ d ∈ P.vars, d.Holds x) ∧ ∀ c ∈ P.constrs, c.Holds x) : P.Feasible x := ⟨h.1, h.2⟩

theorem pairwise_of_legs {α : Type} [DecidableEq α] (f : α → ℚ) : ∀ (l : List α), (∀ i j, (i, j) ∈ consecutive l → f i < f j) →
    l.Pairwise (fun a b => f a < f b)
  | [], _ => List.Pairwise.nil
  | [a], _ => List.pairwise_singleton _ _
  | a :: b :: l, h => by
    have ih := pairwise_of_legs f (b :: l) (fun i j hij => h i j (by
      rw [consecutive_cons_cons]; exact List.mem_cons_of_mem _ hij))
    have hab := h a b (by simp [consecutive_cons_cons])
    rw [List.pairwise_cons]
    refine ⟨?_, ih⟩
    intro c hc
    rcases List.mem_cons.1 hc with rfl | hc
    · exact hab
    · exact lt_trans hab ((List.pairwise_cons.1 ih).1 c hc)

theorem pair_sublist {α : Type} {l : List α} {v w : α} (hv : v ∈ l) (hw : w ∈ l) (hne : v ≠ w) :
    List.Sublist [v, w] l ∨ List.Sublist [w, v] l := by
  obtain ⟨a, b, rfl⟩ := List.append_of_mem hv
  rcases List.mem_append.1 hw with hw | hw
  · right
    exact (List.singleton_sublist.2 hw).append (List.singleton_sublist.2 (List.mem_cons_self))
  · left
    have : w ∈ b := (List.mem_cons.1 hw).resolve_left (fun h => hne h.symm)
    exact List.Sublist.trans ((List.singleton_sublist.2 this).cons_cons v) (List.sublist_append_right _ _)

/-- Loads that grow by the demand of the node reached. -/
theorem loads_along (d L : Node → ℚ) : ∀ (pre post : List Node) (u : Node),
    (∀ i j, (i, j) ∈ consecutive (u :: (pre ++ post)) → L j = L i + d j) →
    L ((u :: pre).getLast (by simp)) = L u + (pre.map d).sum
  | [], _, _, _ => by simp
  | v :: pre, post, u, h => by
    have h1 := h u v (by simp [consecutive_cons_cons])
    have ih := loads_along d L pre post v (fun i j hij => h i j (by
      rw [List.cons_append, consecutive_cons_cons]; exact List.mem_cons_of_mem _ hij))
    rw [List.getLast_cons (by simp), ih, h1, List.map_cons, List.sum_cons]
    ring

namespace PricingLP

variable {q : PricingLP} {cap : ℚ} {p : PVar → ℚ} {mid : List Node}

theorem pd_of_feasible (hG : WellFormed q.G) (hd : q.G.demand .source = 0)
    (hreq : ∀ v ∈ q.G.nodes, ∀ w, q.G.request v = some w → v ∈ q.G.customers ∧ w ∈ q.G.customers ∧ v ≠ w)
    (hpd : q.pickupDelivery = true) (h : (q.lp cap).Feasible p)
    (hr : IsSimpleRoute q.G (routeOf mid)) (hperm : (q.chosen p).Perm (consecutive (routeOf mid))) :
    (∀ v ∈ q.G.nodes, ∀ w, q.G.request v = some w → ((v ∈ routeOf mid ↔ w ∈ routeOf mid) ∧
      (v ∈ routeOf mid → List.Sublist [v, w] (routeOf mid)))) ∧
    (∀ pre post, routeOf mid = pre ++ post → 0 ≤ load q.G pre ∧ load q.G pre ≤ cap) ∧ load q.G (routeOf mid) = 0 := by
  have hf := flowPoint h
  have hranked : q.ranked = true := by simp [ranked, hpd]
  have hc : ∀ c ∈ q.pdConstrs cap, c.Holds p := by
    intro c hc
    apply h.constrs
    simp [lp, hpd, hc]
  have hreqmem : ∀ v ∈ q.G.nodes, ∀ w, q.G.request v = some w → (v, w) ∈ q.requests := by
    intro v hv w hvw
    simp only [requests, List.mem_filterMap]
    exact ⟨v, hv, by rw [hvw]; rfl⟩
  have hx : ∀ i j, (i, j) ∈ consecutive (routeOf mid) → (i, j) ∈ q.G.edges ∧ p (.x i j) = 1 := by
    intro i j hij
    have he : (i, j) ∈ q.chosen p := hperm.mem_iff.2 hij
    have he' := (mem_chosen.1 he).1
    have := hf.binary.value he'
    rw [if_pos he] at this
    exact ⟨he', this⟩
  have hload : ∀ i j, (i, j) ∈ consecutive (routeOf mid) → p (.load j) = p (.load i) + q.G.demand j := by
    intro i j hij
    obtain ⟨he, hx1⟩ := hx i j hij
    have h1 := hc ⟨[(1, .load i), (-1, .load j), (cap, .x i j)], .le, cap - q.G.demand j⟩ (by
      simp only [pdConstrs, List.mem_append]
      left; left; right
      exact List.mem_map.2 ⟨(i, j), he, rfl⟩)
    have h2 := hc ⟨[(1, .load i), (-1, .load j), (-cap, .x i j)], .ge, -cap - q.G.demand j⟩ (by
      simp only [pdConstrs, List.mem_append]
      left; right
      exact List.mem_map.2 ⟨(i, j), he, rfl⟩)
    simp only [Constr.Holds, eval_cons, eval_nil, hx1] at h1 h2
    linarith
  have hsrc : p (.load .source) = 0 := by
    have := hc ⟨[(1, .load .source)], .eq, 0⟩ (by simp [pdConstrs])
    simpa [Constr.Holds] using this
  have hsink : p (.load .sink) = 0 := by
    have := hc ⟨[(1, .load .sink)], .eq, 0⟩ (by simp [pdConstrs])
    simpa [Constr.Holds] using this
  have hbound : ∀ v ∈ q.G.nodes, 0 ≤ p (.load v) ∧ p (.load v) ≤ cap := by
    intro v hv
    have := h.vars { var := .load v, lo := some 0, up := some cap } (by
      simp only [lp, hpd, if_true, List.mem_append]
      left; right
      exact List.mem_map.2 ⟨v, hv, rfl⟩)
    exact ⟨this.1 0 rfl, this.2.1 cap rfl⟩
  have hlast : ∀ pre post, mid ++ [Node.sink] = pre ++ post →
      p (.load ((Node.source :: pre).getLast (by simp))) = load q.G (Node.source :: pre) := by
    intro pre post hpp
    have := loads_along q.G.demand (fun v => p (.load v)) pre post .source (by
      rw [← hpp]; exact hload)
    rw [this, hsrc]
    simp [load, hd]
  refine ⟨?_, ?_, ?_⟩
  · intro v hvn w hvw
    obtain ⟨hv, hw, hne⟩ := hreq v hvn w hvw
    have h1 := hc ⟨lpSum (q.outFlow v) ++ (lpSum (q.outFlow w)).neg, .eq, 0⟩ (by
      simp only [pdConstrs, List.mem_append]
      left; left; left; left
      exact List.mem_map.2 ⟨(v, w), hreqmem v hvn w hvw, rfl⟩)
    have h2 := hc ⟨[(1, .y v), (-1, .y w)], .le, 0⟩ (by
      simp only [pdConstrs, List.mem_append]
      left; left; left; right
      exact List.mem_map.2 ⟨(v, w), hreqmem v hvn w hvw, rfl⟩)
    simp only [Constr.Holds, eval_append, eval_neg, eval_lpSum] at h1
    rw [out_count hG hr hf.binary hperm hv, out_count hG hr hf.binary hperm hw] at h1
    simp only [Constr.Holds, eval_cons, eval_nil] at h2
    have hiff : v ∈ routeOf mid ↔ w ∈ routeOf mid := by
      by_cases hv' : v ∈ routeOf mid <;> by_cases hw' : w ∈ routeOf mid <;> simp [hv', hw'] at h1 ⊢
    refine ⟨hiff, ?_⟩
    intro hv'
    rcases pair_sublist hv' (hiff.1 hv') hne with h3 | h3
    · exact h3
    · exfalso
      have hpw := pairwise_of_legs (fun v => p (.y v)) (routeOf mid) (fun i j hij =>
        rank_lt h hranked (e := (i, j)) (hperm.mem_iff.2 hij))
      have := hpw.sublist h3
      simp only [List.pairwise_cons, List.mem_singleton, forall_eq] at this
      linarith [this.1]
  · intro pre post hpp
    cases pre with
    | nil =>
      have := hbound _ hG.source_mem
      rw [hsrc] at this
      simp only [load, List.map_nil, List.sum_nil]
      exact this
    | cons a pre =>
      simp only [routeOf, List.cons_append, List.cons.injEq] at hpp
      obtain ⟨rfl, hpp⟩ := hpp
      rw [← hlast pre post hpp]
      apply hbound
      apply routeOf_mem_nodes hG hr
      have : (Node.source :: pre).getLast (by simp) ∈ Node.source :: pre := List.getLast_mem _
      simp only [routeOf, hpp]
      rw [← List.cons_append]
      exact List.mem_append_left _ this
  · have := hlast (mid ++ [Node.sink]) [] (by simp)
    simp only [routeOf]
    rw [← this]
    rw [List.getLast_cons (by simp), List.getLast_append_of_ne_nil _ (by simp)]
    simpa using hsink

theorem dc_of_feasible (hG : WellFormed q.G) (hd : q.G.demand .sink = 0) (hcol : q.G.collect .source = 0)
    (hdc : q.distributionCollection = true) (h : (q.lp cap).Feasible p)
    (hr : IsSimpleRoute q.G (routeOf mid)) (hperm : (q.chosen p).Perm (consecutive (routeOf mid))) :
    ∀ pre post, routeOf mid = pre ++ post → pre ≠ [] → post ≠ [] →
      load q.G post + (pre.map q.G.collect).sum ≤ cap := by
  have hf := flowPoint h
  have hcust := route_customers hr.1
  have hc : ∀ c ∈ q.dcConstrs cap, c.Holds p := by
    intro c hc
    apply h.constrs
    simp [lp, hdc, hc]
  have hval : ∀ i j, j ∈ q.G.succ i → p (.x i j) = if (i, j) ∈ consecutive (routeOf mid) then 1 else 0 := by
    intro i j hij
    have := hf.binary.value ((Net.mem_edges hG i j).2 hij)
    simp only [hperm.mem_iff] at this
    exact this
  have hnn : ∀ i j, j ∈ q.G.succ i → 0 ≤ p (.unloadE i j) ∧ 0 ≤ p (.loadE i j) := by
    intro i j hij
    have he := (Net.mem_edges hG i j).2 hij
    have h1 := h.vars { var := .unloadE i j, lo := some 0, up := some cap } (by
      simp only [lp, hdc, if_true, List.mem_append]
      right
      simp only [dcVars, List.mem_append]
      left
      exact List.mem_map.2 ⟨(i, j), he, rfl⟩)
    have h2 := h.vars { var := .loadE i j, lo := some 0, up := some cap } (by
      simp only [lp, hdc, if_true, List.mem_append]
      right
      simp only [dcVars, List.mem_append]
      right
      exact List.mem_map.2 ⟨(i, j), he, rfl⟩)
    exact ⟨h1.1 0 rfl, h2.1 0 rfl⟩
  have hsum : ∀ i j, j ∈ q.G.succ i → p (.loadE i j) + p (.unloadE i j) ≤ cap * p (.x i j) := by
    intro i j hij
    have he := (Net.mem_edges hG i j).2 hij
    have := hc ⟨[(1, .loadE i j), (1, .unloadE i j), (-cap, .x i j)], .le, 0⟩ (by
      simp only [dcConstrs, List.mem_append]
      right
      exact List.mem_map.2 ⟨(i, j), he, rfl⟩)
    simp only [Constr.Holds, eval_cons, eval_nil] at this
    linarith
  have hzero : ∀ i j, j ∈ q.G.succ i → (i, j) ∉ consecutive (routeOf mid) → p (.x i j) = 0 ∧ p (.unloadE i j) = 0 ∧
      p (.loadE i j) = 0 := by
    intro i j hij hn
    have h1 := hval i j hij
    rw [if_neg hn] at h1
    have h2 := hsum i j hij
    rw [h1] at h2
    have h3 := hnn i j hij
    exact ⟨h1, by linarith [h3.1, h3.2], by linarith [h3.1, h3.2]⟩
  have hbal : ∀ u v w pre post, routeOf mid = pre ++ u :: v :: w :: post →
      p (.unloadE u v) = q.G.demand v + p (.unloadE v w) ∧ p (.loadE v w) = q.G.collect v + p (.loadE u v) := by
    intro u v w pre post he
    have h1 : (u, v) ∈ consecutive (routeOf mid) := mem_consecutive_iff.2 ⟨pre, w :: post, he⟩
    have h2 : (v, w) ∈ consecutive (routeOf mid) := mem_consecutive_iff.2 ⟨pre ++ [u], post, by rw [he]; simp⟩
    have hv : v ∈ q.G.customers := by
      have hs1 := edge_of_leg hr h1
      have hs2 := edge_of_leg hr h2
      refine mem_customers.2 ⟨(hG.edge_mem _ _ hs1).2, ?_, ?_⟩
      · rintro rfl; exact hG.no_into_source _ hs1
      · rintro rfl; rw [hG.no_out_of_sink] at hs2; cases hs2
    have c1 := hc _ (by
      simp only [dcConstrs, List.mem_append]
      left; left
      exact List.mem_map.2 ⟨v, hv, rfl⟩)
    have c2 := hc _ (by
      simp only [dcConstrs, List.mem_append]
      left; right
      exact List.mem_map.2 ⟨v, hv, rfl⟩)
    have hx1 := hval u v (edge_of_leg hr h1)
    rw [if_pos h1] at hx1
    simp only [Constr.Holds, eval_append, eval_neg, eval_lpSum, eval_map, List.map_map, Function.comp_def] at c1 c2
    rw [sum_preds hG hr h1 (fun u => q.G.demand v * p (.x u v))
        (fun u' h3 h4 => by rw [(hzero u' v h3 h4).1, mul_zero]),
      sum_preds hG hr h1 (fun u => p (.unloadE u v)) (fun u' h3 h4 => (hzero u' v h3 h4).2.1),
      sum_succs hG hr h2 (fun w => p (.unloadE v w)) (fun u' h3 h4 => (hzero v u' h3 h4).2.1)] at c1
    rw [sum_preds hG hr h1 (fun u => q.G.collect v * p (.x u v))
        (fun u' h3 h4 => by rw [(hzero u' v h3 h4).1, mul_zero]),
      sum_preds hG hr h1 (fun u => p (.loadE u v)) (fun u' h3 h4 => (hzero u' v h3 h4).2.2),
      sum_succs hG hr h2 (fun w => p (.loadE v w)) (fun u' h3 h4 => (hzero v u' h3 h4).2.2)] at c2
    rw [hx1] at c1 c2
    constructor <;> linarith
  have hsucc : ∀ i j pre post, routeOf mid = pre ++ i :: j :: post → j ∈ q.G.succ i := fun i j pre post he =>
    edge_of_leg hr (mem_consecutive_iff.2 ⟨pre, post, he⟩)
  have hU : ∀ post i j pre, routeOf mid = pre ++ i :: j :: post → load q.G (j :: post) ≤ p (.unloadE i j) := by
    intro post
    induction post with
    | nil =>
      intro i j pre he
      have h1 : j = .sink := by
        have := congrArg List.getLast? he
        rw [routeOf, show Node.source :: (mid ++ [Node.sink]) = (Node.source :: mid) ++ [Node.sink] by simp,
          show pre ++ [i, j] = (pre ++ [i]) ++ [j] by simp, List.getLast?_concat, List.getLast?_concat] at this
        simpa using this.symm
      subst h1
      simp only [load, List.map_cons, List.map_nil, List.sum_cons, List.sum_nil, hd, add_zero]
      exact (hnn _ _ (hsucc _ _ _ _ he)).1
    | cons w post ih =>
      intro i j pre he
      have h1 := (hbal i j w pre post he).1
      have h2 := ih j w (pre ++ [i]) (by rw [he]; simp)
      simp only [load, List.map_cons, List.sum_cons] at h2 ⊢
      linarith
  have hL : ∀ pre i j post, routeOf mid = pre ++ i :: j :: post →
      ((pre ++ [i]).map q.G.collect).sum ≤ p (.loadE i j) := by
    intro pre
    induction pre using List.reverseRecOn with
    | nil =>
      intro i j post he
      have h1 : i = .source := by
        simp only [routeOf, List.nil_append, List.cons.injEq] at he
        exact he.1.symm
      subst h1
      simp only [List.nil_append, List.map_cons, List.map_nil, List.sum_cons, List.sum_nil, hcol, add_zero]
      exact (hnn _ _ (hsucc _ _ [] _ he)).2
    | append_singleton pre k ih =>
      intro i j post he
      have he' : routeOf mid = pre ++ k :: i :: j :: post := by rw [he]; simp
      have h1 := (hbal k i j pre post he').2
      have h2 := ih k i (j :: post) he'
      rw [List.map_append, List.sum_append]
      simp only [List.map_cons, List.map_nil, List.sum_cons, List.sum_nil] at h2 ⊢
      linarith
  intro pre post he hpre hpost
  obtain ⟨pre', i, rfl⟩ : ∃ pre' i, pre = pre' ++ [i] := by
    rcases List.eq_nil_or_concat pre with h | ⟨c, w, h⟩
    · exact absurd h hpre
    · exact ⟨c, w, by rw [h, List.concat_eq_append]⟩
  obtain ⟨j, post', rfl⟩ := List.exists_cons_of_ne_nil hpost
  have he' : routeOf mid = pre' ++ i :: j :: post' := by rw [he]; simp
  have h1 := hU _ _ _ _ he'
  have h2 := hL _ _ _ _ he'
  have h3 := hsum i j (hsucc _ _ _ _ he')
  have h4 := hval i j (hsucc _ _ _ _ he')
  rw [if_pos (mem_consecutive_iff.2 ⟨_, _, he'⟩)] at h4
  rw [h4] at h3
  linarith

end PricingLP

end Vrpy

namespace Vrpy

open Spec

/-- Times for a route that is on time. -/
theorem exists_times {G : Net} : ∀ (rest : List Node) (u : Node) (a : ℚ), (u :: rest).Nodup →
    (∀ pr ∈ rest.zip (arrivalsFrom G a u rest), pr.2 ≤ G.upper pr.1) →
    ∃ t : Node → ℚ, t u = a ∧ (∀ v ∈ rest, G.lower v ≤ t v ∧ t v ≤ G.upper v) ∧
      (∀ i j, (i, j) ∈ consecutive (u :: rest) → t i + G.service i + G.time i j ≤ t j) ∧
      ∀ v, v ∉ u :: rest → t v = G.lower v
  | [], u, a, _, _ => ⟨fun v => if v = u then a else G.lower v, by simp, by simp, by simp [consecutive], by
      intro v hv; simp at hv; simp [hv]⟩
  | v :: rest, u, a, hnd, h => by
    rw [List.nodup_cons] at hnd
    simp only [arrivalsFrom, List.zip_cons_cons, List.mem_cons, forall_eq_or_imp] at h
    obtain ⟨t, h1, h2, h3, h4⟩ := exists_times rest v _ hnd.2 h.2
    have hne : ∀ w ∈ v :: rest, w ≠ u := fun w hw hwu => hnd.1 (hwu ▸ hw)
    refine ⟨fun w => if w = u then a else t w, by simp, ?_, ?_, ?_⟩
    · intro w hw
      simp only [if_neg (hne w hw)]
      rcases List.mem_cons.1 hw with rfl | hw
      · rw [h1]; exact ⟨le_max_right _ _, h.1⟩
      · exact h2 w hw
    · intro i j hij
      rw [consecutive_cons_cons, List.mem_cons] at hij
      rcases hij with hij | hij
      · cases hij
        simp only [if_true, if_neg (hne v List.mem_cons_self), h1]
        exact le_max_left _ _
      · simp only [if_neg (hne i (fst_mem_of_consecutive hij)), if_neg (hne j (snd_mem_of_consecutive hij))]
        exact h3 i j hij
    · intro w hw
      rw [List.mem_cons, not_or] at hw
      simp only [if_neg hw.1]
      exact h4 w hw.2

namespace PricingLP

variable {q : PricingLP} {cap : ℚ} {p : PVar → ℚ} {mid : List Node}

/-- Without ranks: the chosen edges are any of their simple routes plus cycles. -/
theorem route_and_cycles_at (hG : WellFormed q.G) (h : (q.lp cap).Feasible p) (hp : ConnTo (q.chosen p) .sink (routeOf mid))
    (hnd : (routeOf mid).Nodup) (hm1 : Node.source ∉ mid) (hm2 : Node.sink ∉ mid) :
    ∃ R, IsSimpleRoute q.G (routeOf mid) ∧ (q.chosen p).Perm (consecutive (routeOf mid) ++ R) ∧ Balanced R ∧
      R.Nodup ∧ ∀ e ∈ R, e.2 ∈ q.G.succ e.1 := by
  have hf := flowPoint h
  have hu := hf.unitFlow hG
  obtain ⟨hsub, hbal, _⟩ := hu.decompose_at hp hnd hm1 hm2
  have hperm := split_perm hu.nodup (consecutive_nodup hnd) hsub
  have hin : ∀ u v, (u, v) ∈ consecutive (routeOf mid) → v ∈ q.G.succ u := fun u v huv =>
    (Net.mem_edges hG u v).1 (mem_chosen.1 (hsub _ huv)).1
  refine ⟨_, ⟨⟨mid, rfl, ?_, (along_iff _ _).2 hin⟩, hnd⟩, hperm, hbal, hu.nodup.filter _, ?_⟩
  · intro v hv
    refine ⟨?_, ?_⟩
    · cases v with
      | source => exact absurd hv hm1
      | sink => exact absurd hv hm2
      | cust n => exact ⟨n, rfl⟩
    · obtain ⟨u, hu⟩ := pred_of_mem (mid ++ [Node.sink]) .source (List.mem_append_left _ hv)
      exact (hG.edge_mem u v (hin u v hu)).2
  · intro e he
    exact (Net.mem_edges hG _ _).1 (mem_chosen.1 (List.mem_filter.1 he).1).1

/-- Without ranks: the chosen edges are a simple route plus cycles. -/
theorem route_and_cycles (hG : WellFormed q.G) (h : (q.lp cap).Feasible p) :
    ∃ mid R, IsSimpleRoute q.G (routeOf mid) ∧ (q.chosen p).Perm (consecutive (routeOf mid) ++ R) ∧ Balanced R ∧
      R.Nodup ∧ ∀ e ∈ R, e.2 ∈ q.G.succ e.1 := by
  obtain ⟨r, hp⟩ := ((flowPoint h).unitFlow hG).exists_path
  obtain ⟨mid, rfl, hnd, hm1, hm2⟩ := connTo_routeOf hp
  obtain ⟨R, hR⟩ := route_and_cycles_at hG h hp hnd hm1 hm2
  exact ⟨mid, R, hR⟩

/-- Without ranks, dropping the cycles keeps a point with a customer on its route feasible. -/
theorem drop_cycles (hG : WellFormed q.G) (hd : q.G.demand .source = 0)
    (hpd : q.pickupDelivery = false) (hdc : q.distributionCollection = true → DcOk q (routeOf mid) cap)
    (hcap : q.caps ≠ [] → q.caps[q.vehicleType]? = some cap)
    (hdem : ∀ v ∈ q.G.nodes, 0 ≤ q.G.demand v) (htime : ∀ u v, v ∈ q.G.succ u → 0 ≤ q.G.time u v + q.G.service u)
    (hup : q.timeWindows = true → 0 ≤ q.G.upper .sink) (h : (q.lp cap).Feasible p) (hr : IsSimpleRoute q.G (routeOf mid)) (hne : mid ≠ [])
    {R : List (Node × Node)} (hperm : (q.chosen p).Perm (consecutive (routeOf mid) ++ R))
    (hR : ∀ e ∈ R, e.2 ∈ q.G.succ e.1) :
    (q.lp cap).Feasible (q.pointOf (routeOf mid) (fun v => p (.t v))) ∧
      WithinStops q.numStops mid.length ∧ WithinCapacity q.caps q.vehicleType (load q.G (routeOf mid)) ∧
      Within q.duration (Spec.duration q.G (routeOf mid) - q.G.service .sink) := by
  have hf := flowPoint h
  have hsum : ∀ f : Node × Node → ℚ, (∀ e ∈ R, 0 ≤ f e) →
      legSum (fun u v => f (u, v)) (routeOf mid) ≤ (q.G.edges.map (fun e => f e * p (.x e.1 e.2))).sum := by
    intro f h0
    rw [hf.binary.sum, (hperm.map f).sum_eq, List.map_append, List.sum_append, legSum_eq]
    have : 0 ≤ (R.map f).sum := by
      apply List.sum_nonneg
      intro x hx
      obtain ⟨e, he, rfl⟩ := List.mem_map.1 hx
      exact h0 e he
    linarith
  have hstops : WithinStops q.numStops mid.length := by
    intro m hm hm0
    obtain ⟨n, rfl⟩ := Nat.exists_eq_succ_of_ne_zero hm0
    have := h.constrs (q.stopsConstr (n + 1)) (by simp [lp, hm])
    simp only [Constr.Holds, stopsConstr, eval_map] at this
    have h1 := hsum (fun _ => 1) (fun _ _ => by norm_num)
    rw [legSum_one] at h1
    have h2 : (mid.length : ℚ) ≤ (n + 1 : Nat) := by linarith
    exact_mod_cast h2
  have hload : q.caps ≠ [] → load q.G (routeOf mid) ≤ cap := by
    intro hne
    have := h.constrs (q.loadConstr cap) (by simp [lp, hne])
    simp only [Constr.Holds, loadConstr, eval_map] at this
    have h1 := hsum (fun e => q.G.demand e.2) (fun e he => hdem _ (hG.edge_mem _ _ (hR e he)).2)
    rw [routeOf, legSum_head] at h1
    simp only [load, routeOf, List.map_cons, List.sum_cons, hd, zero_add]
    linarith
  have hdur : Within q.duration (Spec.duration q.G (routeOf mid) - q.G.service .sink) := by
    intro d hd' hd0
    have := h.constrs (q.durationConstr d) (by
      have : active q.duration = some d := active_eq_some.2 ⟨hd', hd0⟩
      simp [lp, this])
    simp only [Constr.Holds, durationConstr, eval_map] at this
    have h1 := hsum (fun e => q.G.time e.1 e.2 + q.G.service e.1) (fun e he => htime _ _ (hR e he))
    rw [legSum_add (fun u v => q.G.time u v) (fun u _ => q.G.service u), legSum_tail] at h1
    have hdrop : (routeOf mid).dropLast = .source :: mid := by
      simp [routeOf, List.dropLast_cons_of_ne_nil]
    rw [hdrop] at h1
    simp only [Spec.duration, travel, routeOf, List.map_cons, List.sum_cons, List.map_append, List.sum_append,
      List.map_nil, List.sum_nil] at h1 ⊢
    linarith
  refine ⟨pointOf_feasible hG hd hr hne hstops hload hdur ?_ (by simp [hpd]) hdc, hstops,
    fun hc => ⟨cap, hcap hc, hload hc⟩, hdur⟩
  intro htw
  have hc : ∀ c ∈ q.timeConstrs, c.Holds p := by
    intro c hc
    apply h.constrs
    simp [lp, htw, hc]
  have harc : ∀ u v, v ∈ q.G.succ u → p (.t u) - p (.t v) + q.G.upper .sink * p (.x u v) ≤
      q.G.upper .sink - q.G.service u - q.G.time u v := by
    intro u v huv
    have := hc ⟨[(1, .t u), (-1, .t v), (q.G.upper .sink, .x u v)], .le,
        q.G.upper .sink - q.G.service u - q.G.time u v⟩ (by
      simp only [timeConstrs, List.mem_append]
      left; left
      exact List.mem_map.2 ⟨(u, v), (Net.mem_edges hG u v).2 huv, rfl⟩)
    simp only [Constr.Holds, eval_cons, eval_nil] at this
    linarith
  refine ⟨?_, ?_, ?_, ?_⟩
  · intro v hv
    have := h.vars { var := .t v, lo := some 0 } (by
      simp only [lp, htw, if_true, List.mem_append]
      left; left; left; right
      exact List.mem_map.2 ⟨v, hv, rfl⟩)
    exact this.1 0 rfl
  · intro v hv
    have h1 := hc ⟨[(1, .t v)], .ge, q.G.lower v⟩ (by
      simp only [timeConstrs, List.mem_append]
      right
      exact List.mem_map.2 ⟨v, hv, rfl⟩)
    have h2 := hc ⟨[(1, .t v)], .le, q.G.upper v⟩ (by
      simp only [timeConstrs, List.mem_append]
      left; right
      exact List.mem_map.2 ⟨v, hv, rfl⟩)
    simp only [Constr.Holds, eval_cons, eval_nil, one_mul, add_zero] at h1 h2
    exact ⟨h1, h2⟩
  · intro u v huv
    have he : (u, v) ∈ q.chosen p := hperm.mem_iff.2 (List.mem_append_left _ huv)
    have := hf.binary.value (mem_chosen.1 he).1
    rw [if_pos he] at this
    have h2 := harc u v ((Net.mem_edges hG u v).1 (mem_chosen.1 he).1)
    rw [this] at h2
    linarith
  · intro u v huv _
    have h2 := harc u v huv
    have : 0 ≤ p (.x u v) := by
      rcases hf.binary (u, v) ((Net.mem_edges hG u v).2 huv) with h | h <;> simp only at h <;> rw [h] <;> norm_num
    have := mul_nonneg (hup htw) this
    linarith

theorem objective_split (h : (q.lp cap).Feasible p) {r : List Node} {R : List (Node × Node)}
    (hperm : (q.chosen p).Perm (consecutive r ++ R)) :
    (q.lp cap).obj.eval p = legSum q.weight r + (R.map (fun e => q.weight e.1 e.2)).sum := by
  have hf := flowPoint h
  have h1 : (q.lp cap).obj = q.G.edges.map (fun e => (q.weight e.1 e.2, PVar.x e.1 e.2)) := rfl
  rw [h1, eval_map, hf.binary.sum (fun e => q.weight e.1 e.2), (hperm.map _).sum_eq, List.map_append, List.sum_append,
    legSum_eq]

end PricingLP

end Vrpy
