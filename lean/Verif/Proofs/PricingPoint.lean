import Verif.Proofs.PricingLP

/-!
# The point of the pricing problem that belongs to a route
-/

namespace Vrpy

open Spec

section Split

variable {α : Type} [DecidableEq α]

/-- The nodes before `v`. -/
def before (r : List α) (v : α) : List α := r.takeWhile (fun w => w ≠ v)

/-- The nodes from `v` on. -/
def fromOn (r : List α) (v : α) : List α := r.dropWhile (fun w => w ≠ v)

theorem before_append (r : List α) (v : α) : before r v ++ fromOn r v = r := List.takeWhile_append_dropWhile

theorem before_eq {pre post : List α} {v : α} (h : v ∉ pre) : before (pre ++ v :: post) v = pre := by
  unfold before
  rw [List.takeWhile_append_of_pos (by intro a ha; simp only [decide_eq_true_eq]; rintro rfl; exact h ha)]
  simp

theorem fromOn_eq {pre post : List α} {v : α} (h : v ∉ pre) : fromOn (pre ++ v :: post) v = v :: post := by
  unfold fromOn
  rw [List.dropWhile_append_of_pos (by intro a ha; simp only [decide_eq_true_eq]; rintro rfl; exact h ha)]
  simp

theorem mem_consecutive_iff {l : List α} {i j : α} :
    (i, j) ∈ consecutive l ↔ ∃ pre post, l = pre ++ i :: j :: post := by
  constructor
  · induction l with
    | nil => intro h; simp [consecutive] at h
    | cons a l ih =>
      cases l with
      | nil => intro h; simp [consecutive] at h
      | cons b l =>
        intro h
        rw [consecutive_cons_cons] at h
        rcases List.mem_cons.1 h with h | h
        · cases h; exact ⟨[], l, rfl⟩
        · obtain ⟨pre, post, hp⟩ := ih h
          exact ⟨a :: pre, post, by rw [hp]; rfl⟩
  · rintro ⟨pre, post, rfl⟩
    rw [consecutive_append]
    apply List.mem_append_right
    simp [consecutive_cons_cons]

theorem split_not_mem {pre post : List α} {i j : α} (h : (pre ++ i :: j :: post).Nodup) :
    i ∉ pre ∧ j ∉ pre ∧ j ≠ i := by
  rw [List.nodup_append] at h
  obtain ⟨_, h2, h3⟩ := h
  refine ⟨fun hi => h3 i hi i (by simp) rfl, fun hj => h3 j hj j (by simp) rfl, ?_⟩
  rintro rfl
  simp at h2

/-- In a list without repetitions predecessors are unique. -/
theorem pred_unique {l : List α} (hl : l.Nodup) {u u' v : α} (h : (u, v) ∈ consecutive l) (h' : (u', v) ∈ consecutive l) :
    u' = u := by
  obtain ⟨pre, post, rfl⟩ := mem_consecutive_iff.1 h
  obtain ⟨pre', post', he⟩ := mem_consecutive_iff.1 h'
  have h1 := split_not_mem hl
  have h2 := split_not_mem (he ▸ hl)
  have e1 : before (pre ++ u :: v :: post) v = pre ++ [u] := by
    rw [show pre ++ u :: v :: post = (pre ++ [u]) ++ v :: post by simp]
    exact before_eq (by simp [h1.2.1, h1.2.2])
  have e2 : before (pre' ++ u' :: v :: post') v = pre' ++ [u'] := by
    rw [show pre' ++ u' :: v :: post' = (pre' ++ [u']) ++ v :: post' by simp]
    exact before_eq (by simp [h2.2.1, h2.2.2])
  rw [← he, e1] at e2
  have := congrArg List.getLast? e2
  simpa using this.symm

/-- In a list without repetitions successors are unique. -/
theorem succ_unique {l : List α} (hl : l.Nodup) {u v v' : α} (h : (u, v) ∈ consecutive l) (h' : (u, v') ∈ consecutive l) :
    v' = v := by
  obtain ⟨pre, post, rfl⟩ := mem_consecutive_iff.1 h
  obtain ⟨pre', post', he⟩ := mem_consecutive_iff.1 h'
  have h1 := split_not_mem hl
  have h2 := split_not_mem (he ▸ hl)
  have e1 := fromOn_eq (post := v :: post) h1.1
  have e2 := fromOn_eq (post := v' :: post') h2.1
  rw [← he, e1] at e2
  simp at e2
  exact e2.1.symm

theorem sum_map_unique (l : List α) (hl : l.Nodup) (f : α → ℚ) {a : α} (ha : a ∈ l) (h : ∀ b ∈ l, b ≠ a → f b = 0) :
    (l.map f).sum = f a := by
  induction l with
  | nil => cases ha
  | cons c l ih =>
    rw [List.nodup_cons] at hl
    rw [List.map_cons, List.sum_cons]
    by_cases hca : c = a
    · subst hca
      have : (l.map f).sum = 0 := by
        apply List.sum_eq_zero
        intro x hx
        obtain ⟨b, hb, rfl⟩ := List.mem_map.1 hx
        exact h b (List.mem_cons_of_mem _ hb) (fun hbc => hl.1 (hbc ▸ hb))
      rw [this, add_zero]
    · rw [h c List.mem_cons_self hca, zero_add]
      exact ih hl.2 ((List.mem_cons.1 ha).resolve_left (fun h => hca h.symm))
        (fun b hb => h b (List.mem_cons_of_mem _ hb))

theorem sum_map_zero (l : List α) (f : α → ℚ) (h : ∀ b ∈ l, f b = 0) : (l.map f).sum = 0 := by
  apply List.sum_eq_zero
  intro x hx
  obtain ⟨b, hb, rfl⟩ := List.mem_map.1 hx
  exact h b hb

end Split

theorem Net.mem_preds {G : Net} (hG : WellFormed G) {u v : Node} : u ∈ G.preds v ↔ v ∈ G.succ u := by
  simp only [Net.preds, Net.hasEdge, List.mem_filter, decide_eq_true_eq]
  exact ⟨fun h => h.2, fun h => ⟨(hG.edge_mem u v h).1, h⟩⟩

/-- Each customer on a route has a predecessor and a successor. -/
theorem route_split {mid : List Node} {v : Node} (hv : v ∈ mid) :
    ∃ u w pre post, routeOf mid = pre ++ u :: v :: w :: post := by
  obtain ⟨a, b, rfl⟩ := List.append_of_mem hv
  have h1 : ∃ pre u, Node.source :: a = pre ++ [u] := by
    rcases List.eq_nil_or_concat (Node.source :: a) with h | ⟨c, w, h⟩
    · cases h
    · exact ⟨c, w, by rw [h, List.concat_eq_append]⟩
  have h2 : ∃ w post, b ++ [Node.sink] = w :: post := by
    cases b with
    | nil => exact ⟨_, _, rfl⟩
    | cons x b => exact ⟨_, _, rfl⟩
  obtain ⟨pre, u, h1⟩ := h1
  obtain ⟨w, post, h2⟩ := h2
  refine ⟨u, w, pre, post, ?_⟩
  calc routeOf (a ++ v :: b) = (Node.source :: a) ++ v :: (b ++ [Node.sink]) := by simp [routeOf]
    _ = _ := by rw [h1, h2]; simp

namespace PricingLP

variable {q : PricingLP} {cap : ℚ} {p : PVar → ℚ}

section Route

variable {mid : List Node}

theorem edge_of_leg (hr : IsSimpleRoute q.G (routeOf mid)) {u v : Node} (h : (u, v) ∈ consecutive (routeOf mid)) :
    v ∈ q.G.succ u := by
  obtain ⟨_, _, _, h1⟩ := hr.1
  exact (along_iff _ _).1 h1 u v h

/-- A quantity on the arcs into `v` that vanishes off the route. -/
theorem sum_preds (hG : WellFormed q.G) (hr : IsSimpleRoute q.G (routeOf mid)) {u v : Node}
    (h : (u, v) ∈ consecutive (routeOf mid)) (f : Node → ℚ)
    (h0 : ∀ u', v ∈ q.G.succ u' → (u', v) ∉ consecutive (routeOf mid) → f u' = 0) :
    ((q.G.preds v).map f).sum = f u := by
  refine sum_map_unique _ (hG.nodes_nodup.filter _) f ((Net.mem_preds hG).2 (edge_of_leg hr h)) ?_
  intro u' hu' hne
  exact h0 u' ((Net.mem_preds hG).1 hu') (fun h' => hne (pred_unique hr.2 h h'))

theorem sum_succs (hG : WellFormed q.G) (hr : IsSimpleRoute q.G (routeOf mid)) {v w : Node}
    (h : (v, w) ∈ consecutive (routeOf mid)) (f : Node → ℚ)
    (h0 : ∀ w', w' ∈ q.G.succ v → (v, w') ∉ consecutive (routeOf mid) → f w' = 0) :
    ((q.G.succ v).map f).sum = f w := by
  refine sum_map_unique _ (hG.succ_nodup v) f (edge_of_leg hr h) ?_
  intro w' hw' hne
  exact h0 w' hw' (fun h' => hne (succ_unique hr.2 h h'))

end Route

/-- The point of the route `r`; `t` are the times. -/
def pointOf (q : PricingLP) (r : List Node) (t : Node → ℚ) : PVar → ℚ
  | .x u v => if (u, v) ∈ consecutive r then 1 else 0
  | .t v => t v
  | .y v => if v ∈ r then (before r v).length else 0
  | .load v => if v ∈ r then load q.G (before r v ++ [v]) else max (q.G.demand v) 0
  | .unloadE u v => if (u, v) ∈ consecutive r then load q.G (fromOn r v) else 0
  | .loadE u v => if (u, v) ∈ consecutive r then ((before r u ++ [u]).map q.G.collect).sum else 0

/-- What is needed of the times. -/
structure TimesOk (q : PricingLP) (r : List Node) (t : Node → ℚ) : Prop where
  nonneg : ∀ v ∈ q.G.nodes, 0 ≤ t v
  window : ∀ v ∈ q.G.nodes, q.G.lower v ≤ t v ∧ t v ≤ q.G.upper v
  leg : ∀ u v, (u, v) ∈ consecutive r → t u + q.G.service u + q.G.time u v ≤ t v
  other : ∀ u v, v ∈ q.G.succ u → (u, v) ∉ consecutive r →
    t u + q.G.service u + q.G.time u v ≤ t v + q.G.upper .sink

/-- What is needed of the loads with pickup and delivery. -/
structure PdOk (q : PricingLP) (r : List Node) (cap : ℚ) : Prop where
  small : ∀ v ∈ q.G.nodes, -cap ≤ q.G.demand v ∧ q.G.demand v ≤ cap
  request : ∀ v ∈ q.G.nodes, ∀ w, q.G.request v = some w → v ∈ q.G.customers ∧ w ∈ q.G.customers ∧
    ((v ∈ r ↔ w ∈ r) ∧ (v ∈ r → List.Sublist [v, w] r))
  prefixes : ∀ pre post, r = pre ++ post → 0 ≤ load q.G pre ∧ load q.G pre ≤ cap
  zero : load q.G r = 0

/-- What is needed of the loads with distribution and collection. -/
structure DcOk (q : PricingLP) (r : List Node) (cap : ℚ) : Prop where
  demand : ∀ v ∈ q.G.nodes, 0 ≤ q.G.demand v
  collect : ∀ v ∈ q.G.nodes, 0 ≤ q.G.collect v
  goods : ∀ pre post, r = pre ++ post → pre ≠ [] → post ≠ [] →
    load q.G post + (pre.map q.G.collect).sum ≤ cap

section Feasible

variable {mid : List Node} {t : Node → ℚ}

theorem pointOf_binary (r : List Node) (t : Node → ℚ) : Binary q (q.pointOf r t) := by
  intro e _
  simp only [pointOf]
  split
  · right; rfl
  · left; rfl

theorem pointOf_chosen (hG : WellFormed q.G) (hr : IsSimpleRoute q.G (routeOf mid)) :
    (q.chosen (q.pointOf (routeOf mid) t)).Perm (consecutive (routeOf mid)) := by
  refine (List.perm_ext_iff_of_nodup ((net_edges_nodup hG).filter _) (consecutive_nodup hr.2)).2 ?_
  rintro ⟨u, v⟩
  refine mem_chosen.trans ?_
  simp only [pointOf]
  constructor
  · rintro ⟨_, h⟩
    by_contra hc
    rw [if_neg hc] at h
    norm_num at h
  · intro h
    exact ⟨(Net.mem_edges hG u v).2 (edge_of_leg hr h), by rw [if_pos h]; norm_num⟩

theorem pointOf_sum (hG : WellFormed q.G) (hr : IsSimpleRoute q.G (routeOf mid)) (f : Node × Node → ℚ) :
    (q.G.edges.map (fun e => f e * q.pointOf (routeOf mid) t (.x e.1 e.2))).sum =
      legSum (fun u v => f (u, v)) (routeOf mid) :=
  sum_chosen (pointOf_binary _ t) (pointOf_chosen hG hr) f

theorem routeOf_mem_nodes (hG : WellFormed q.G) (hr : IsSimpleRoute q.G (routeOf mid)) : ∀ v ∈ routeOf mid, v ∈ q.G.nodes := by
  intro v hv
  simp only [routeOf, List.mem_cons, List.mem_append, List.not_mem_nil, or_false] at hv
  rcases hv with rfl | hv | rfl
  · exact hG.source_mem
  · exact (mem_customers.1 (route_customers hr.1 v hv)).1
  · exact hG.sink_mem

theorem before_length_lt {r : List Node} (hr : r.Nodup) {v : Node} (hv : v ∈ r) : (before r v).length < r.length := by
  obtain ⟨a, b, rfl⟩ := List.append_of_mem hv
  rw [List.nodup_append] at hr
  rw [before_eq (fun h => hr.2.2 v h v (by simp) rfl)]
  simp

theorem before_sink (hr : (routeOf mid).Nodup) : before (routeOf mid) .sink = .source :: mid := by
  have : routeOf mid = (.source :: mid) ++ .sink :: [] := by simp [routeOf]
  rw [this] at hr ⊢
  rw [List.nodup_append] at hr
  exact before_eq (fun h => hr.2.2 _ h .sink (by simp) rfl)

theorem before_leg {r : List Node} (hr : r.Nodup) {u v : Node} (h : (u, v) ∈ consecutive r) :
    before r v = before r u ++ [u] ∧ fromOn r u = u :: fromOn r v := by
  obtain ⟨pre, post, rfl⟩ := mem_consecutive_iff.1 h
  have h1 := split_not_mem hr
  rw [before_eq h1.1, fromOn_eq h1.1]
  rw [show pre ++ u :: v :: post = (pre ++ [u]) ++ v :: post by simp]
  rw [before_eq (by simp [h1.2.1, h1.2.2]), fromOn_eq (by simp [h1.2.1, h1.2.2])]
  simp

/-- The flow constraints hold. -/
theorem pointOf_flow (hG : WellFormed q.G) (hr : IsSimpleRoute q.G (routeOf mid)) (hne : mid ≠ []) :
    ∀ c ∈ q.flowConstrs, c.Holds (q.pointOf (routeOf mid) t) := by
  have hb := pointOf_binary (q := q) (routeOf mid) t
  have hperm := pointOf_chosen (t := t) hG hr
  have hout : ∀ v, (((q.outFlow v).map (q.pointOf (routeOf mid) t)).sum) = ((Node.source :: mid).count v : ℚ) := by
    intro v
    rw [hb.outFlow hG]
    unfold outDeg
    rw [hperm.countP_eq]
    have := outDeg_consecutive (routeOf mid) v
    unfold outDeg at this
    rw [this]
    congr 2
    simp [routeOf, List.dropLast_cons_of_ne_nil]
  have hin : ∀ v, (((q.inFlow v).map (q.pointOf (routeOf mid) t)).sum) = ((mid ++ [Node.sink]).count v : ℚ) := by
    intro v
    rw [hb.inFlow hG]
    unfold inDeg
    rw [hperm.countP_eq]
    have := inDeg_consecutive (routeOf mid) v
    unfold inDeg at this
    rw [this]
    rfl
  have hcust := route_customers hr.1
  have hs1 : Node.source ∉ mid := fun h => (mem_customers.1 (hcust _ h)).2.1 rfl
  have hs2 : Node.sink ∉ mid := fun h => (mem_customers.1 (hcust _ h)).2.2 rfl
  intro c hc
  simp only [flowConstrs, List.mem_append, List.mem_map, List.mem_cons, List.not_mem_nil, or_false] at hc
  rcases hc with ⟨v, hv, rfl⟩ | rfl | rfl | rfl
  · simp only [Constr.Holds, eval_append, eval_neg, eval_lpSum, hout, hin]
    have := mem_customers.1 hv
    rw [List.count_append, List.count_cons_of_ne (fun h => this.2.1 h.symm), List.count_singleton,
      if_neg (by simpa using fun h => this.2.2 h.symm)]
    push_cast
    ring
  · simp only [Constr.Holds, eval_lpSum, hout]
    rw [List.count_cons_self, List.count_eq_zero_of_not_mem hs1]
    norm_num
  · simp only [Constr.Holds, eval_lpSum, hin]
    rw [List.count_append, List.count_singleton_self, List.count_eq_zero_of_not_mem hs2]
    norm_num
  · simp only [Constr.Holds, eval_map]
    rw [pointOf_sum hG hr (fun _ => 1), legSum_one]
    have : 1 ≤ mid.length := List.length_pos_iff.2 hne
    have : (1 : ℚ) ≤ mid.length := by exact_mod_cast this
    linarith

theorem pointOf_rank (hG : WellFormed q.G) (hr : IsSimpleRoute q.G (routeOf mid)) :
    (∀ c ∈ q.rankConstrs, c.Holds (q.pointOf (routeOf mid) t)) ∧
      ∀ d ∈ q.rankVars, d.Holds (q.pointOf (routeOf mid) t) := by
  have hlen : (routeOf mid).length ≤ q.G.nodes.length := (hr.2.subperm (routeOf_mem_nodes hG hr)).length_le
  have hy : ∀ v, 0 ≤ q.pointOf (routeOf mid) t (.y v) ∧
      q.pointOf (routeOf mid) t (.y v) ≤ q.pointOf (routeOf mid) t (.y .sink) := by
    intro v
    have hsink : q.pointOf (routeOf mid) t (.y .sink) = (mid.length : ℚ) + 1 := by
      simp only [pointOf]
      rw [if_pos (by simp [routeOf]), before_sink hr.2]
      simp
    rw [hsink]
    simp only [pointOf]
    split
    · rename_i hv
      have := before_length_lt hr.2 hv
      have h2 : (routeOf mid).length = mid.length + 2 := by simp [routeOf]
      have h3 : (before (routeOf mid) v).length ≤ mid.length + 1 := by omega
      exact ⟨by positivity, by exact_mod_cast h3⟩
    · exact ⟨le_refl _, by positivity⟩
  have hsink : q.pointOf (routeOf mid) t (.y .sink) ≤ (q.G.nodes.length : ℚ) - 1 := by
    simp only [pointOf]
    rw [if_pos (by simp [routeOf]), before_sink hr.2]
    have h2 : (routeOf mid).length = mid.length + 2 := by simp [routeOf]
    have h3 : mid.length + 1 + 1 ≤ q.G.nodes.length := by omega
    have h4 : ((mid.length + 1 + 1 : Nat) : ℚ) ≤ q.G.nodes.length := by exact_mod_cast h3
    push_cast at h4
    simp only [List.length_cons]
    push_cast
    linarith
  constructor
  · intro c hc
    simp only [rankConstrs, List.mem_append, List.mem_map, List.mem_cons, List.not_mem_nil, or_false] at hc
    rcases hc with (⟨e, he, rfl⟩ | rfl) | ⟨v, hv, rfl⟩
    · simp only [Constr.Holds, eval_cons, eval_nil]
      by_cases h : (e.1, e.2) ∈ consecutive (routeOf mid)
      · have hx : q.pointOf (routeOf mid) t (.x e.1 e.2) = 1 := by simp only [pointOf]; rw [if_pos h]
        have h1 : q.pointOf (routeOf mid) t (.y e.2) = q.pointOf (routeOf mid) t (.y e.1) + 1 := by
          simp only [pointOf]
          rw [if_pos (snd_mem_of_consecutive h), if_pos (fst_mem_of_consecutive h), (before_leg hr.2 h).1]
          simp
        rw [hx, h1]
        linarith
      · have hx : q.pointOf (routeOf mid) t (.x e.1 e.2) = 0 := by simp only [pointOf]; rw [if_neg h]
        rw [hx]
        have := (hy e.1).2
        have := (hy e.2).1
        linarith
    · simp only [Constr.Holds, eval_cons, eval_nil, pointOf]
      rw [if_pos (by simp [routeOf])]
      simp [routeOf, before]
    · simp only [Constr.Holds, eval_cons, eval_nil]
      have := (hy v).2
      linarith
  · intro d hd
    obtain ⟨v, hv, rfl⟩ := List.mem_map.1 hd
    refine ⟨?_, ?_, ?_⟩
    · intro a ha
      simp only [Option.some.injEq] at ha
      rw [← ha]
      exact (hy v).1
    · intro a ha
      simp only [Option.some.injEq] at ha
      rw [← ha]
      have := (hy v).2
      simp only
      linarith
    · intro _
      simp only [pointOf]
      split
      · exact ⟨_, (Int.cast_natCast _).symm⟩
      · exact ⟨0, by simp⟩

theorem pointOf_time (ht : TimesOk q (routeOf mid) t) :
    (∀ c ∈ q.timeConstrs, c.Holds (q.pointOf (routeOf mid) t)) ∧
      ∀ d ∈ q.timeVars, d.Holds (q.pointOf (routeOf mid) t) := by
  constructor
  · intro c hc
    simp only [timeConstrs, List.mem_append, List.mem_map] at hc
    rcases hc with (⟨e, he, rfl⟩ | ⟨v, hv, rfl⟩) | ⟨v, hv, rfl⟩
    · simp only [Constr.Holds, eval_cons, eval_nil, pointOf]
      have hs : e.2 ∈ q.G.succ e.1 := by
        simp only [Net.edges, List.mem_flatMap, List.mem_map] at he
        obtain ⟨u, _, v, hv, rfl⟩ := he
        exact hv
      by_cases h : (e.1, e.2) ∈ consecutive (routeOf mid)
      · rw [if_pos h]
        have := ht.leg _ _ h
        linarith
      · rw [if_neg h]
        have := ht.other _ _ hs h
        linarith
    · simp only [Constr.Holds, eval_cons, eval_nil, pointOf]
      have := (ht.window v hv).2
      linarith
    · simp only [Constr.Holds, eval_cons, eval_nil, pointOf]
      have := (ht.window v hv).1
      linarith
  · intro d hd
    obtain ⟨v, hv, rfl⟩ := List.mem_map.1 hd
    refine ⟨?_, by simp, by simp⟩
    intro a ha
    simp only [Option.some.injEq] at ha
    rw [← ha]
    exact ht.nonneg v hv

theorem pointOf_dc (hG : WellFormed q.G) (hr : IsSimpleRoute q.G (routeOf mid)) (hdc : DcOk q (routeOf mid) cap) :
    (∀ c ∈ q.dcConstrs cap, c.Holds (q.pointOf (routeOf mid) t)) ∧
      ∀ d ∈ q.dcVars cap, d.Holds (q.pointOf (routeOf mid) t) := by
  have hnodes := routeOf_mem_nodes hG hr
  have hleg : ∀ u v, (u, v) ∈ consecutive (routeOf mid) →
      0 ≤ load q.G (fromOn (routeOf mid) v) ∧ 0 ≤ ((before (routeOf mid) u ++ [u]).map q.G.collect).sum ∧
      load q.G (fromOn (routeOf mid) v) + ((before (routeOf mid) u ++ [u]).map q.G.collect).sum ≤ cap := by
    intro u v h
    have hb := (before_leg hr.2 h).1
    have hsplit := before_append (routeOf mid) v
    rw [hb] at hsplit
    refine ⟨?_, ?_, ?_⟩
    · apply List.sum_nonneg
      intro x hx
      obtain ⟨w, hw, rfl⟩ := List.mem_map.1 hx
      exact hdc.demand w (hnodes w (by rw [← hsplit]; exact List.mem_append_right _ hw))
    · apply List.sum_nonneg
      intro x hx
      obtain ⟨w, hw, rfl⟩ := List.mem_map.1 hx
      exact hdc.collect w (hnodes w (by rw [← hsplit]; exact List.mem_append_left _ hw))
    · apply hdc.goods _ _ hsplit.symm (by simp)
      intro h0
      obtain ⟨pre, post, he⟩ := mem_consecutive_iff.1 h
      have h1 := split_not_mem (he ▸ hr.2)
      rw [he, show pre ++ u :: v :: post = (pre ++ [u]) ++ v :: post by simp,
        fromOn_eq (by simp [h1.2.1, h1.2.2])] at h0
      cases h0
  have hcap : 0 ≤ cap := by
    obtain ⟨w, hw⟩ : ∃ w, (Node.source, w) ∈ consecutive (routeOf mid) := by
      cases mid with
      | nil => exact ⟨.sink, by simp [routeOf, consecutive_cons_cons]⟩
      | cons a l => exact ⟨a, by simp [routeOf, consecutive_cons_cons]⟩
    have := hleg _ _ hw
    linarith [this.1, this.2.1, this.2.2]
  constructor
  · intro c hc
    simp only [dcConstrs, List.mem_append, List.mem_map] at hc
    rcases hc with (⟨v, hv, rfl⟩ | ⟨v, hv, rfl⟩) | ⟨e, he, rfl⟩
    · simp only [Constr.Holds, eval_append, eval_neg, eval_lpSum, eval_map, List.map_map, Function.comp_def]
      have hcv := mem_customers.1 hv
      by_cases hm : v ∈ mid
      · obtain ⟨u, w, pre, post, he⟩ := route_split hm
        have h1 : (u, v) ∈ consecutive (routeOf mid) := mem_consecutive_iff.2 ⟨pre, w :: post, he⟩
        have h2 : (v, w) ∈ consecutive (routeOf mid) := mem_consecutive_iff.2 ⟨pre ++ [u], post, by rw [he]; simp⟩
        rw [sum_preds hG hr h1 (fun u => q.G.demand v * q.pointOf (routeOf mid) t (.x u v))
          (fun u' _ h => by simp only [pointOf]; rw [if_neg h, mul_zero]),
          sum_preds hG hr h1 (fun u => q.pointOf (routeOf mid) t (.unloadE u v))
          (fun u' _ h => by simp only [pointOf]; rw [if_neg h]),
          sum_succs hG hr h2 (fun w => q.pointOf (routeOf mid) t (.unloadE v w))
          (fun u' _ h => by simp only [pointOf]; rw [if_neg h])]
        simp only [pointOf]
        rw [if_pos h1, if_pos h2, if_pos h1, (before_leg hr.2 h2).2]
        simp only [load, List.map_cons, List.sum_cons]
        ring
      · have hn : v ∉ routeOf mid := by
          simp only [routeOf, List.mem_cons, List.mem_append, List.not_mem_nil, or_false]
          rintro (h | h | h)
          · exact hcv.2.1 h
          · exact hm h
          · exact hcv.2.2 h
        rw [sum_map_zero, sum_map_zero, sum_map_zero]
        · ring
        · intro w _
          simp only [pointOf]
          rw [if_neg (fun h => hn (fst_mem_of_consecutive h))]
        · intro w _
          simp only [pointOf]
          rw [if_neg (fun h => hn (snd_mem_of_consecutive h))]
        · intro w _
          simp only [pointOf]
          rw [if_neg (fun h => hn (snd_mem_of_consecutive h)), mul_zero]
    · simp only [Constr.Holds, eval_append, eval_neg, eval_lpSum, eval_map, List.map_map, Function.comp_def]
      have hcv := mem_customers.1 hv
      by_cases hm : v ∈ mid
      · obtain ⟨u, w, pre, post, he⟩ := route_split hm
        have h1 : (u, v) ∈ consecutive (routeOf mid) := mem_consecutive_iff.2 ⟨pre, w :: post, he⟩
        have h2 : (v, w) ∈ consecutive (routeOf mid) := mem_consecutive_iff.2 ⟨pre ++ [u], post, by rw [he]; simp⟩
        rw [sum_preds hG hr h1 (fun u => q.G.collect v * q.pointOf (routeOf mid) t (.x u v))
          (fun u' _ h => by simp only [pointOf]; rw [if_neg h, mul_zero]),
          sum_preds hG hr h1 (fun u => q.pointOf (routeOf mid) t (.loadE u v))
          (fun u' _ h => by simp only [pointOf]; rw [if_neg h]),
          sum_succs hG hr h2 (fun w => q.pointOf (routeOf mid) t (.loadE v w))
          (fun u' _ h => by simp only [pointOf]; rw [if_neg h])]
        simp only [pointOf]
        rw [if_pos h1, if_pos h2, if_pos h1, (before_leg hr.2 h1).1]
        simp only [List.map_append, List.sum_append, List.map_cons, List.sum_cons, List.map_nil, List.sum_nil]
        ring
      · have hn : v ∉ routeOf mid := by
          simp only [routeOf, List.mem_cons, List.mem_append, List.not_mem_nil, or_false]
          rintro (h | h | h)
          · exact hcv.2.1 h
          · exact hm h
          · exact hcv.2.2 h
        rw [sum_map_zero, sum_map_zero, sum_map_zero]
        · ring
        · intro w _
          simp only [pointOf]
          rw [if_neg (fun h => hn (snd_mem_of_consecutive h))]
        · intro w _
          simp only [pointOf]
          rw [if_neg (fun h => hn (fst_mem_of_consecutive h))]
        · intro w _
          simp only [pointOf]
          rw [if_neg (fun h => hn (snd_mem_of_consecutive h)), mul_zero]
    · simp only [Constr.Holds, eval_cons, eval_nil, pointOf]
      by_cases h : (e.1, e.2) ∈ consecutive (routeOf mid)
      · rw [if_pos h, if_pos h, if_pos h]
        have := (hleg _ _ h).2.2
        linarith
      · rw [if_neg h, if_neg h, if_neg h]
        simp
  · intro d hd
    simp only [dcVars, List.mem_append, List.mem_map] at hd
    rcases hd with ⟨e, he, rfl⟩ | ⟨e, he, rfl⟩
    · refine ⟨?_, ?_, by simp⟩
      · intro a ha
        simp only [Option.some.injEq] at ha
        rw [← ha]
        simp only [pointOf]
        split
        · rename_i h; exact (hleg _ _ h).1
        · exact le_refl _
      · intro a ha
        simp only [Option.some.injEq] at ha
        rw [← ha]
        simp only [pointOf]
        split
        · rename_i h
          have := hleg _ _ h
          linarith [this.1, this.2.1, this.2.2]
        · exact hcap
    · refine ⟨?_, ?_, by simp⟩
      · intro a ha
        simp only [Option.some.injEq] at ha
        rw [← ha]
        simp only [pointOf]
        split
        · rename_i h; exact (hleg _ _ h).2.1
        · exact le_refl _
      · intro a ha
        simp only [Option.some.injEq] at ha
        rw [← ha]
        simp only [pointOf]
        split
        · rename_i h
          have := hleg _ _ h
          linarith [this.1, this.2.1, this.2.2]
        · exact hcap

theorem out_count (hG : WellFormed q.G) (hr : IsSimpleRoute q.G (routeOf mid)) (hb : Binary q p)
    (hperm : (q.chosen p).Perm (consecutive (routeOf mid))) {v : Node} (hv : v ∈ q.G.customers) :
    ((q.outFlow v).map p).sum = if v ∈ routeOf mid then 1 else 0 := by
  have hc := mem_customers.1 hv
  have hmem : v ∈ routeOf mid ↔ v ∈ mid := by
    simp only [routeOf, List.mem_cons, List.mem_append, List.not_mem_nil, or_false]
    constructor
    · rintro (h | h | h)
      · exact absurd h hc.2.1
      · exact h
      · exact absurd h hc.2.2
    · exact fun h => Or.inr (Or.inl h)
  rw [hb.outFlow hG]
  unfold outDeg
  rw [hperm.countP_eq]
  have := outDeg_consecutive (routeOf mid) v
  unfold outDeg at this
  rw [this, show (routeOf mid).dropLast = .source :: mid by simp [routeOf, List.dropLast_cons_of_ne_nil],
    List.count_cons_of_ne (fun h => hc.2.1 h.symm)]
  have hnd : mid.Nodup := by
    have := hr.2
    simp only [routeOf, List.nodup_cons, List.nodup_append] at this
    exact this.2.1
  simp only [hmem]
  split
  · rename_i h
    rw [List.count_eq_one_of_mem hnd h]
    norm_num
  · rename_i h
    rw [List.count_eq_zero_of_not_mem h]
    norm_num

theorem before_lt_of_sublist {r : List Node} (hr : r.Nodup) {v w : Node} (h : List.Sublist [v, w] r) :
    (before r v).length < (before r w).length := by
  obtain ⟨a, b, rfl, ha, hb⟩ := List.cons_sublist_iff.1 h
  obtain ⟨b1, b2, rfl⟩ := List.append_of_mem (List.singleton_sublist.1 hb)
  obtain ⟨a1, a2, rfl⟩ := List.append_of_mem ha
  have e1 : a1 ++ v :: a2 ++ (b1 ++ w :: b2) = a1 ++ v :: (a2 ++ b1 ++ w :: b2) := by simp
  have e2 : a1 ++ v :: a2 ++ (b1 ++ w :: b2) = (a1 ++ v :: (a2 ++ b1)) ++ w :: b2 := by simp
  have h1 : v ∉ a1 := by
    have := e1 ▸ hr
    rw [List.nodup_append] at this
    exact fun h => this.2.2 v h v (by simp) rfl
  have h2 : w ∉ a1 ++ v :: (a2 ++ b1) := by
    have := e2 ▸ hr
    rw [List.nodup_append] at this
    exact fun h => this.2.2 w h w (by simp) rfl
  have g1 : before (a1 ++ v :: a2 ++ (b1 ++ w :: b2)) v = a1 := by rw [e1]; exact before_eq h1
  have g2 : before (a1 ++ v :: a2 ++ (b1 ++ w :: b2)) w = a1 ++ v :: (a2 ++ b1) := by rw [e2]; exact before_eq h2
  rw [g1, g2]
  simp

theorem pointOf_pd (hG : WellFormed q.G) (hr : IsSimpleRoute q.G (routeOf mid)) (hd : q.G.demand .source = 0)
    (hpd : PdOk q (routeOf mid) cap) :
    (∀ c ∈ q.pdConstrs cap, c.Holds (q.pointOf (routeOf mid) t)) ∧
      ∀ d ∈ q.pdVars cap, d.Holds (q.pointOf (routeOf mid) t) := by
  have hcap : 0 ≤ cap := by
    have := hpd.small _ hG.source_mem
    rw [hd] at this
    exact this.2
  have hbefore : ∀ v ∈ routeOf mid, ∃ post, routeOf mid = before (routeOf mid) v ++ v :: post := by
    intro v hv
    obtain ⟨a, b, hab⟩ := List.append_of_mem hv
    have : v ∉ a := by
      have := hab ▸ hr.2
      rw [List.nodup_append] at this
      exact fun h => this.2.2 v h v (by simp) rfl
    refine ⟨b, ?_⟩
    rw [hab, before_eq this]
  have hon : ∀ v ∈ routeOf mid, 0 ≤ load q.G (before (routeOf mid) v) ∧ load q.G (before (routeOf mid) v) ≤ cap := by
    intro v hv
    obtain ⟨post, h⟩ := hbefore v hv
    exact hpd.prefixes _ _ h
  have hon' : ∀ v ∈ routeOf mid, 0 ≤ load q.G (before (routeOf mid) v ++ [v]) ∧
      load q.G (before (routeOf mid) v ++ [v]) ≤ cap := by
    intro v hv
    obtain ⟨post, h⟩ := hbefore v hv
    exact hpd.prefixes _ post (by rw [List.append_assoc, List.singleton_append]; exact h)
  have happ : ∀ v, load q.G (before (routeOf mid) v ++ [v]) = load q.G (before (routeOf mid) v) + q.G.demand v := by
    intro v; simp [load]
  have hbound : ∀ v ∈ q.G.nodes, 0 ≤ q.pointOf (routeOf mid) t (.load v) ∧
      q.pointOf (routeOf mid) t (.load v) ≤ cap := by
    intro v hv
    simp only [pointOf]
    split
    · rename_i h; exact hon' v h
    · exact ⟨le_max_right _ _, max_le (hpd.small v hv).2 hcap⟩
  constructor
  · intro c hc
    simp only [pdConstrs, List.mem_append, List.mem_map, List.mem_cons, List.not_mem_nil, or_false] at hc
    rcases hc with (((⟨r, hr', rfl⟩ | ⟨r, hr', rfl⟩) | ⟨e, he, rfl⟩) | ⟨e, he, rfl⟩) | rfl | rfl
    · simp only [requests, List.mem_filterMap] at hr'
      obtain ⟨v, hv, hvw⟩ := hr'
      cases hq : q.G.request v with
      | none => rw [hq] at hvw; cases hvw
      | some w =>
        rw [hq] at hvw
        simp only [Option.map_some, Option.some.injEq] at hvw
        subst hvw
        obtain ⟨h1, h2, h3, _⟩ := hpd.request v hv w hq
        simp only [Constr.Holds, eval_append, eval_neg, eval_lpSum]
        rw [out_count hG hr (pointOf_binary _ t) (pointOf_chosen hG hr) h1,
          out_count hG hr (pointOf_binary _ t) (pointOf_chosen hG hr) h2]
        simp only [h3]
        ring
    · simp only [requests, List.mem_filterMap] at hr'
      obtain ⟨v, hv, hvw⟩ := hr'
      cases hq : q.G.request v with
      | none => rw [hq] at hvw; cases hvw
      | some w =>
        rw [hq] at hvw
        simp only [Option.map_some, Option.some.injEq] at hvw
        subst hvw
        obtain ⟨h1, h2, h3, h4⟩ := hpd.request v hv w hq
        simp only [Constr.Holds, eval_cons, eval_nil, pointOf, h3]
        split
        · rename_i h
          have := before_lt_of_sublist hr.2 (h4 (h3.2 h))
          have : ((before (routeOf mid) v).length : ℚ) ≤ (before (routeOf mid) w).length := by exact_mod_cast this.le
          linarith
        · linarith
    · have hs : e.2 ∈ q.G.succ e.1 := (Net.mem_edges hG _ _).1 he
      have hu := hbound e.1 (hG.edge_mem _ _ hs).1
      have hv := hbound e.2 (hG.edge_mem _ _ hs).2
      simp only [Constr.Holds, eval_cons, eval_nil]
      by_cases h : (e.1, e.2) ∈ consecutive (routeOf mid)
      · simp only [pointOf]
        rw [if_pos h, if_pos (fst_mem_of_consecutive h), if_pos (snd_mem_of_consecutive h), happ e.2,
          (before_leg hr.2 h).1]
        linarith
      · have hx : q.pointOf (routeOf mid) t (.x e.1 e.2) = 0 := by simp only [pointOf]; rw [if_neg h]
        rw [hx]
        have : q.G.demand e.2 ≤ q.pointOf (routeOf mid) t (.load e.2) := by
          simp only [pointOf]
          split
          · rename_i hm
            rw [happ]
            linarith [(hon _ hm).1]
          · exact le_max_left _ _
        linarith [hu.2]
    · have hs : e.2 ∈ q.G.succ e.1 := (Net.mem_edges hG _ _).1 he
      have hu := hbound e.1 (hG.edge_mem _ _ hs).1
      have hv := hbound e.2 (hG.edge_mem _ _ hs).2
      simp only [Constr.Holds, eval_cons, eval_nil]
      by_cases h : (e.1, e.2) ∈ consecutive (routeOf mid)
      · simp only [pointOf]
        rw [if_pos h, if_pos (fst_mem_of_consecutive h), if_pos (snd_mem_of_consecutive h), happ e.2,
          (before_leg hr.2 h).1]
        linarith
      · have hx : q.pointOf (routeOf mid) t (.x e.1 e.2) = 0 := by simp only [pointOf]; rw [if_neg h]
        rw [hx]
        have : q.pointOf (routeOf mid) t (.load e.2) ≤ q.G.demand e.2 + cap := by
          simp only [pointOf]
          split
          · rename_i hm
            rw [happ]
            linarith [(hon _ hm).2]
          · have := hpd.small _ (hG.edge_mem _ _ hs).2
            exact max_le (by linarith) (by linarith)
        linarith [hu.1]
    · simp only [Constr.Holds, eval_cons, eval_nil, pointOf]
      rw [if_pos (by simp [routeOf])]
      simp [routeOf, before, load, hd]
    · simp only [Constr.Holds, eval_cons, eval_nil, pointOf]
      rw [if_pos (by simp [routeOf]), before_sink hr.2]
      have := hpd.zero
      simp only [routeOf] at this
      rw [List.cons_append, this]
      simp
  · intro d hd
    obtain ⟨v, hv, rfl⟩ := List.mem_map.1 hd
    refine ⟨?_, ?_, by simp⟩
    · intro a ha
      simp only [Option.some.injEq] at ha
      rw [← ha]
      exact (hbound v hv).1
    · intro a ha
      simp only [Option.some.injEq] at ha
      rw [← ha]
      exact (hbound v hv).2

/-- The point of a feasible route is feasible. -/
theorem pointOf_feasible (hG : WellFormed q.G) (hd : q.G.demand .source = 0)
    (hr : IsSimpleRoute q.G (routeOf mid)) (hne : mid ≠ [])
    (hstops : WithinStops q.numStops mid.length) (hload : q.caps ≠ [] → load q.G (routeOf mid) ≤ cap)
    (hdur : Within q.duration (Spec.duration q.G (routeOf mid) - q.G.service .sink))
    (htime : q.timeWindows = true → TimesOk q (routeOf mid) t)
    (hpd : q.pickupDelivery = true → PdOk q (routeOf mid) cap)
    (hdc : q.distributionCollection = true → DcOk q (routeOf mid) cap) :
    (q.lp cap).Feasible (q.pointOf (routeOf mid) t) := by
  constructor
  · intro d hd'
    simp only [lp, List.mem_append] at hd'
    rcases hd' with (((hd' | hd') | hd') | hd') | hd'
    · obtain ⟨e, he, rfl⟩ := List.mem_map.1 hd'
      rcases pointOf_binary (q := q) (routeOf mid) t e he with h | h
      · refine ⟨?_, ?_, fun _ => ⟨0, by simp [h]⟩⟩ <;>
        · intro a ha
          simp only [Option.some.injEq] at ha
          rw [← ha]
          simp [h]
      · refine ⟨?_, ?_, fun _ => ⟨1, by simp [h]⟩⟩ <;>
        · intro a ha
          simp only [Option.some.injEq] at ha
          rw [← ha]
          simp [h]
    · split at hd'
      · exact (pointOf_time (htime (by assumption))).2 d hd'
      · cases hd'
    · split at hd'
      · exact (pointOf_rank hG hr).2 d hd'
      · cases hd'
    · split at hd'
      · exact (pointOf_pd hG hr hd (hpd (by assumption))).2 d hd'
      · cases hd'
    · split at hd'
      · exact (pointOf_dc hG hr (hdc (by assumption))).2 d hd'
      · cases hd'
  · intro c hc
    simp only [lp, List.mem_append] at hc
    rcases hc with ((((((hc | hc) | hc) | hc) | hc) | hc) | hc) | hc
    · exact pointOf_flow hG hr hne c hc
    · split at hc
      · exact (pointOf_time (htime (by assumption))).1 c hc
      · cases hc
    · split at hc
      · rename_i n hn
        rw [List.mem_singleton] at hc
        subst hc
        simp only [Constr.Holds, stopsConstr, eval_map]
        rw [pointOf_sum hG hr (fun _ => 1), legSum_one]
        have := hstops _ hn (by omega)
        have : (mid.length : ℚ) ≤ (n + 1 : Nat) := by exact_mod_cast this
        linarith
      · cases hc
    · split at hc
      · rename_i hn
        rw [List.mem_singleton] at hc
        subst hc
        simp only [Constr.Holds, loadConstr, eval_map]
        rw [pointOf_sum hG hr (fun e => q.G.demand e.2)]
        have := hload hn
        rw [routeOf, legSum_head]
        simp only [load, routeOf, List.map_cons, List.sum_cons, hd, zero_add] at this
        exact this
      · cases hc
    · split at hc
      · rename_i dd hn
        rw [List.mem_singleton] at hc
        subst hc
        simp only [Constr.Holds, durationConstr, eval_map]
        rw [pointOf_sum hG hr (fun e => q.G.time e.1 e.2 + q.G.service e.1),
          legSum_add (fun u v => q.G.time u v) (fun u _ => q.G.service u), legSum_tail]
        obtain ⟨h1, h2⟩ := active_eq_some.1 hn
        have := hdur dd h1 h2
        have hdrop : (routeOf mid).dropLast = .source :: mid := by
          simp [routeOf, List.dropLast_cons_of_ne_nil]
        rw [hdrop]
        simp only [Spec.duration, travel, routeOf, List.map_cons, List.sum_cons, List.map_append, List.sum_append,
          List.map_nil, List.sum_nil] at this ⊢
        linarith
      · cases hc
    · split at hc
      · exact (pointOf_rank hG hr).1 c hc
      · cases hc
    · split at hc
      · exact (pointOf_pd hG hr hd (hpd (by assumption))).1 c hc
      · cases hc
    · split at hc
      · exact (pointOf_dc hG hr (hdc (by assumption))).1 c hc
      · cases hc

/-- The objective of the point of a route. -/
theorem pointOf_objective (hG : WellFormed q.G) (hr : IsSimpleRoute q.G (routeOf mid)) :
    (q.lp cap).obj.eval (q.pointOf (routeOf mid) t) = legSum q.weight (routeOf mid) := by
  have h : (q.lp cap).obj = q.G.edges.map (fun e => (q.weight e.1 e.2, PVar.x e.1 e.2)) := rfl
  rw [h, eval_map, pointOf_sum hG hr (fun e => q.weight e.1 e.2)]

end Feasible

end PricingLP

end Vrpy
