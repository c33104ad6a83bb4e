import Verif.Model.Prune
import Verif.Proofs.RouteSets
import Mathlib.Algebra.Order.BigOperators.Group.List

/-! Lemmas for the pruning of arcs. -/

namespace Vrpy

open Spec

theorem mem_removeEdges {G : Net} {es : List (Node × Node)} {u v : Node} :
    v ∈ (G.removeEdges es).succ u ↔ v ∈ G.succ u ∧ (u, v) ∉ es := by
  simp [Net.removeEdges]

theorem le_foldl_max (c : ℚ) (cs : List ℚ) : c ≤ cs.foldl max c ∧ ∀ x ∈ cs, x ≤ cs.foldl max c := by
  induction cs generalizing c with
  | nil => simp
  | cons a cs ih =>
    simp only [List.foldl_cons]
    obtain ⟨h1, h2⟩ := ih (max c a)
    refine ⟨le_trans (le_max_left _ _) h1, ?_⟩
    intro x hx
    rcases List.mem_cons.1 hx with rfl | hx
    · exact le_trans (le_max_right _ _) h1
    · exact h2 x hx

theorem foldl_max_mem (c : ℚ) (cs : List ℚ) : cs.foldl max c ∈ c :: cs := by
  induction cs generalizing c with
  | nil => simp
  | cons a cs ih =>
    simp only [List.foldl_cons]
    rcases List.mem_cons.1 (ih (max c a)) with h | h
    · rcases max_choice c a with h' | h' <;> rw [h, h'] <;> simp
    · simp [h]

theorem le_maxOf {c : ℚ} {cs : List ℚ} {x : ℚ} (h : x ∈ c :: cs) : x ≤ maxOf c cs := by
  rcases List.mem_cons.1 h with rfl | h
  · exact (le_foldl_max _ _).1
  · exact (le_foldl_max _ _).2 x h

/-- Two consecutive nodes of a list contribute both to a non-negative sum. -/
theorem consecutive_sum_le (f : Node → ℚ) (r : List Node) (hf : ∀ v ∈ r, 0 ≤ f v) {a b : Node}
    (h : (a, b) ∈ consecutive r) : f a + f b ≤ (r.map f).sum := by
  induction r with
  | nil => simp [consecutive] at h
  | cons x r ih =>
    cases r with
    | nil => simp [consecutive] at h
    | cons y r =>
      have hs : 0 ≤ ((y :: r).map f).sum := List.sum_nonneg (by
        intro q hq
        rw [List.mem_map] at hq
        obtain ⟨v, hv, rfl⟩ := hq
        exact hf v (by simp only [List.mem_cons] at hv ⊢; exact Or.inr hv))
      have hr : 0 ≤ (r.map f).sum := List.sum_nonneg (by
        intro q hq
        rw [List.mem_map] at hq
        obtain ⟨v, hv, rfl⟩ := hq
        exact hf v (by simp [hv]))
      rw [consecutive_cons_cons] at h
      rcases List.mem_cons.1 h with h | h
      · simp only [Prod.mk.injEq] at h
        rw [h.1, h.2]
        simp only [List.map_cons, List.sum_cons]
        linarith
      · have := ih (fun v hv => hf v (by simp [hv])) h
        have h0 := hf x (by simp)
        rw [List.map_cons, List.sum_cons]
        linarith

/-- The windows after strengthening. -/
def strengthened (G : Net) : Net :=
  { G with
    lower := fun v => if v ∈ G.customers then max (G.lower v) (G.lower .source + G.time .source v) else G.lower v
    upper := fun v => if v ∈ G.customers then min (G.upper v) (G.upper .sink - G.time v .sink) else G.upper v }

/-- The strengthening of the customers in `l` only. -/
private def strengthenedOn (G : Net) (l : List Node) : Net :=
  { G with
    lower := fun v => if v ∈ l ∧ v.isDepot = false then max (G.lower v) (G.lower .source + G.time .source v)
      else G.lower v
    upper := fun v => if v ∈ l ∧ v.isDepot = false then min (G.upper v) (G.upper .sink - G.time v .sink)
      else G.upper v }

private theorem mem_customers' {G : Net} {v : Node} : v ∈ G.customers ↔ v ∈ G.nodes ∧ v.isDepot = false := by
  simp [Net.customers]

theorem strengthenWindows_ok {G : Net} (hG : WellFormed G) (hD : DepotConnected G) :
    strengthenWindows G = .ok (strengthened G) := by
  have hkey : strengthenedOn G G.nodes = strengthened G := by
    unfold strengthenedOn strengthened
    congr 1 <;> funext v <;> simp only [mem_customers']
  rw [← hkey]
  unfold strengthenWindows
  suffices H : ∀ (l2 pre : List Node), pre ++ l2 = G.nodes →
      l2.foldlM (fun H v =>
        if v.isDepot then .ok H else
        match H.edgeTime .source v with
        | .error e => .error e
        | .ok t1 =>
          match H.edgeTime v .sink with
          | .error e => .error e
          | .ok t2 => .ok { H with
              lower := fun x => if x = v then max (H.lower v) (H.lower .source + t1) else H.lower x
              upper := fun x => if x = v then min (H.upper v) (H.upper .sink - t2) else H.upper x })
        (strengthenedOn G pre) = (.ok (strengthenedOn G G.nodes) : Py Net) by
    have := H G.nodes [] rfl
    have h0 : strengthenedOn G [] = G := by
      unfold strengthenedOn
      simp
    rwa [h0] at this
  intro l2
  induction l2 with
  | nil =>
    intro pre h
    simp only [List.append_nil] at h
    subst h
    rfl
  | cons v l2 ih =>
    intro pre h
    rw [List.foldlM_cons]
    have hvn : v ∈ G.nodes := by rw [← h]; simp
    have hvpre : v ∉ pre := by
      have := hG.nodes_nodup
      rw [← h, List.nodup_append] at this
      intro hv
      exact this.2.2 v hv v (by simp) rfl
    by_cases hd : v.isDepot = true
    · have hsame : strengthenedOn G (pre ++ [v]) = strengthenedOn G pre := by
        unfold strengthenedOn
        congr 1 <;> funext x <;> by_cases hx : x = v <;> simp [hx, hd]
      simp only [hd, if_true]
      have := ih (pre ++ [v]) (by simpa using h)
      rw [hsame] at this
      exact this
    · have hd' : v.isDepot = false := by simpa using hd
      have hc : v ∈ G.customers := mem_customers'.2 ⟨hvn, hd'⟩
      obtain ⟨e1, e2⟩ := depot_edges hD hc
      have t1 : (strengthenedOn G pre).edgeTime .source v = .ok (G.time .source v) := edgeTime_ok (G := G) e1
      have t2 : (strengthenedOn G pre).edgeTime v .sink = .ok (G.time v .sink) := edgeTime_ok (G := G) e2
      simp only [hd', Bool.false_eq_true, if_false, t1, t2]
      have := ih (pre ++ [v]) (by simpa using h)
      rw [← this]
      show List.foldlM _ _ l2 = _
      congr 1
      unfold strengthenedOn
      congr 1
      · funext x
        by_cases hx : x = v
        · subst hx
          simp [hd', hvpre, show Node.source.isDepot = true from rfl, show Node.sink.isDepot = true from rfl]
        · simp [hx]
      · funext x
        by_cases hx : x = v
        · subst hx
          simp [hd', hvpre, show Node.source.isDepot = true from rfl, show Node.sink.isDepot = true from rfl]
        · simp [hx]

theorem strengthened_wf {G : Net} (hG : WellFormed G) : WellFormed (strengthened G) :=
  ⟨hG.nodes_nodup, hG.succ_nodup, hG.edge_mem, hG.source_mem, hG.sink_mem, hG.no_into_source, hG.no_out_of_sink⟩

theorem strengthened_idem (G : Net) : strengthened (strengthened G) = strengthened G := by
  have hc : (strengthened G).customers = G.customers := rfl
  have hs : (Node.source ∉ G.customers) ∧ (Node.sink ∉ G.customers) := by simp [mem_customers]
  rw [strengthened]
  simp only [hc]
  conv_rhs => rw [strengthened]
  unfold strengthened
  congr 1
  · funext v
    by_cases h : v ∈ G.customers <;> simp [h, hs.1]
  · funext v
    by_cases h : v ∈ G.customers <;> simp [h, hs.2]

/-- Arc `e` fails the test with the windows of `G`. -/
def TwBad (G : Net) (e : Node × Node) : Prop :=
  G.lower e.1 + G.time e.1 e.2 + G.service e.1 > G.upper e.2

instance (G : Net) (e : Node × Node) : Decidable (TwBad G e) := by unfold TwBad; infer_instance

theorem twLoop_rest {G : Net} (hG : WellFormed G) (hD : DepotConnected G) :
    ∀ (es bad : List (Node × Node)), (∀ e ∈ es, e.2 ∈ G.succ e.1) →
      es.foldlM twStep (strengthened G, bad) =
        .ok (strengthened G, bad ++ es.filter (fun e => TwBad (strengthened G) e)) := by
  intro es
  induction es with
  | nil => intro bad _; simp [pure, Except.pure]
  | cons e es ih =>
    intro bad h
    rw [List.foldlM_cons]
    have he : (strengthened G).edgeTime e.1 e.2 = .ok (G.time e.1 e.2) := edgeTime_ok (G := G) (h e (by simp))
    have hst := strengthenWindows_ok (strengthened_wf hG) (show DepotConnected (strengthened G) from hD)
    rw [strengthened_idem] at hst
    have hstep : twStep (strengthened G, bad) e =
        .ok (strengthened G, if TwBad (strengthened G) e then bad ++ [e] else bad) := by
      unfold twStep
      simp only [he, hst]
      rfl
    rw [hstep]
    show List.foldlM _ _ es = _
    by_cases hb : TwBad (strengthened G) e
    · rw [if_pos hb, ih _ (fun e he => h e (by simp [he]))]
      simp [hb]
    · rw [if_neg hb, ih _ (fun e he => h e (by simp [he]))]
      simp [hb]

/-- What the whole loop does: the first arc is tested with the given windows, the others with the strengthened ones. -/
theorem tw_result {G : Net} (hG : WellFormed G) (hD : DepotConnected G) (e0 : Node × Node) (es : List (Node × Node))
    (he : G.edges = e0 :: es) :
    removeInfeasibleArcsTimeWindows G =
      .ok ((strengthened G).removeEdges ((if TwBad G e0 then [e0] else []) ++
        es.filter (fun e => TwBad (strengthened G) e))) := by
  have hmem : ∀ e ∈ G.edges, e.2 ∈ G.succ e.1 := fun e h => (Net.mem_edges hG e.1 e.2).1 h
  unfold removeInfeasibleArcsTimeWindows
  rw [he, List.foldlM_cons]
  have h0 : G.edgeTime e0.1 e0.2 = .ok (G.time e0.1 e0.2) := edgeTime_ok (hmem e0 (by rw [he]; simp))
  have hstep : twStep (G, []) e0 = .ok (strengthened G, if TwBad G e0 then [e0] else []) := by
    unfold twStep
    simp only [h0, strengthenWindows_ok hG hD]
    simp only [List.nil_append]
    rfl
  rw [hstep]
  have := twLoop_rest hG hD es (if TwBad G e0 then [e0] else []) (fun e h => hmem e (by rw [he]; simp [h]))
  simp only [bind, Except.bind, this]

theorem arrivalsFrom_congr {G H : Net} (h1 : H.service = G.service) (h2 : H.time = G.time) (h3 : H.lower = G.lower)
    (t : ℚ) (u : Node) (rest : List Node) : arrivalsFrom H t u rest = arrivalsFrom G t u rest := by
  induction rest generalizing t u with
  | nil => rfl
  | cons v rest ih =>
    simp only [arrivalsFrom, h1, h2, h3]
    rw [ih]

theorem onTime_removeEdges {G : Net} {es : List (Node × Node)} (r : List Node) :
    OnTime (G.removeEdges es) r ↔ OnTime G r := by
  cases r with
  | nil => rfl
  | cons u rest =>
    simp only [OnTime]
    rw [arrivalsFrom_congr (G := G) (H := G.removeEdges es) rfl rfl rfl]
    rfl

end Vrpy
