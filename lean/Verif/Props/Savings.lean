import Verif.Props.ClarkeWright
import Verif.Proofs.RouteSets
import Verif.Proofs.Columns
import Verif.Proofs.PricingPoint
import Verif.Model.Columns
import Mathlib.Tactic.Ring

/-!
# C76: the savings heuristic joins routes in the order of the savings
-/

namespace Vrpy

open Spec

/-- What is saved by driving from `e.1` to `e.2` instead of via the depot; the arc itself counts `alpha` times. -/
def Spec.saving (G : Net) (alpha : ℚ) (e : Node × Node) : ℚ :=
  (G.cost e.1 .sink).getD 0 0 + (G.cost .source e.2).getD 0 0 - alpha * (G.cost e.1 e.2).getD 0 0

/-- A list in non-increasing order of `f` with the same elements as `l`; elements with the same value of `f` stay in the order of `l`. -/
structure Spec.SortedDown {α : Type} (f : α → ℚ) (l l' : List α) : Prop where
  perm : l'.Perm l
  sorted : l'.Pairwise (fun a b => f b ≤ f a)
  stable : ∀ x, l'.filter (fun a => f a = x) = l.filter (fun a => f a = x)

/-- The customers `L`, visited in this order, are within the limits given to the heuristic. -/
structure Spec.FitsTogether (G : Net) (cfg : CWConfig) (L : List Node) : Prop where
  load : Within cfg.cap (L.map G.demand).sum
  stops : Within cfg.numStops (L.length : ℚ)
  duration : Within cfg.duration (Spec.duration G (routeOf L))

open Classical in
/-- The arc `e` is offered, when `R v` are the customers on the route of `v`: a customer who is still alone is added at the end of the route
that ends with `e.1`, or (if there is an arc back) at the beginning of the route that begins with `e.2`, within the limits. -/
noncomputable def Spec.offerArc (G : Net) (fits : List Node → Prop) (R : Node → List Node) (e : Node × Node) : Node → List Node :=
  if e.1 ≠ e.2 ∧ R e.2 = [e.2] ∧ (R e.1).getLast? = some e.1 ∧ fits (R e.1 ++ [e.2]) then
    fun v => if v ∈ R e.1 ++ [e.2] then R e.1 ++ [e.2] else R v
  else if e.1 ≠ e.2 ∧ e.1 ∈ G.succ e.2 ∧ R e.1 = [e.1] ∧ (R e.2).head? = some e.2 ∧ fits (e.1 :: R e.2) then
    fun v => if v ∈ e.1 :: R e.2 then e.1 :: R e.2 else R v
  else R

theorem consecutive_part {pre l post : List Node} {p : Node × Node} (h : p ∈ consecutive l) : p ∈ consecutive (pre ++ l ++ post) := by
  obtain ⟨a, b, rfl⟩ := mem_consecutive_iff.1 (show (p.1, p.2) ∈ consecutive l from h)
  exact mem_consecutive_iff.2 ⟨pre ++ a, b ++ post, by simp⟩

/-- Insertion sort is stable. -/
theorem insertionSort_sortedDown {α : Type} (f : α → ℚ) (l : List α) :
    SortedDown f l (l.insertionSort (fun a b => f b ≤ f a)) := by
  have : Std.Total (fun a b : α => f b ≤ f a) := ⟨fun a b => le_total _ _⟩
  have : IsTrans α (fun a b => f b ≤ f a) := ⟨fun a b c h1 h2 => le_trans h2 h1⟩
  refine ⟨List.perm_insertionSort _ _, List.pairwise_insertionSort _ _, fun x => ?_⟩
  have h1 : List.Sublist (l.filter (fun a => f a = x)) <| l.insertionSort (fun a b => f b ≤ f a) := by
    refine List.sublist_insertionSort ?_ List.filter_sublist
    rw [List.pairwise_iff_forall_sublist]
    intro a b hab
    have ha := (List.mem_filter.1 (hab.subset (by simp : a ∈ [a, b]))).2
    have hb := (List.mem_filter.1 (hab.subset (by simp : b ∈ [a, b]))).2
    rw [of_decide_eq_true ha, of_decide_eq_true hb]
  have h2 := h1.filter (fun a => decide (f a = x))
  rw [List.filter_filter] at h2
  simp only [Bool.and_self] at h2
  refine (h2.eq_of_length ?_).symm
  exact ((List.perm_insertionSort _ l).filter _).length_eq.symm

section

variable {G : Net} {cfg : CWConfig}

/-- The arcs between customers in the order in which they are offered. -/
theorem cwOrderedEdges_sorted (hG : WellFormed G) (hD : DepotConnected G) (hK : CostsFor G 1) :
    ∃ es, cwOrderedEdges G cfg = .ok es ∧
      SortedDown (saving G cfg.alpha) (G.edges.filter (fun e => e.1 ≠ .source ∧ e.2 ≠ .sink)) es ∧
      ∀ e ∈ es, e.1 ∈ G.customers ∧ e.2 ∈ G.customers ∧ e.2 ∈ G.succ e.1 := by
  have hmem : ∀ e ∈ G.edges.filter (fun e => e.1 ≠ .source ∧ e.2 ≠ .sink),
      e.1 ∈ G.customers ∧ e.2 ∈ G.customers ∧ e.2 ∈ G.succ e.1 := by
    rintro ⟨u, v⟩ he
    simp only [List.mem_filter, decide_eq_true_eq, Net.mem_edges hG] at he
    obtain ⟨h1, h2, h3⟩ := he
    obtain ⟨m1, m2⟩ := hG.edge_mem u v h1
    refine ⟨mem_customers.2 ⟨m1, h2, ?_⟩, mem_customers.2 ⟨m2, ?_, h3⟩, h1⟩
    · rintro rfl
      rw [hG.no_out_of_sink] at h1
      cases h1
    · rintro rfl
      exact hG.no_into_source u h1
  have hmap := mapM_ok (G.edges.filter (fun e => e.1 ≠ .source ∧ e.2 ≠ .sink)) (cwSaving G cfg)
    (fun e => (e, saving G cfg.alpha e)) (by
      intro e he
      obtain ⟨h1, h2, h3⟩ := hmem e he
      simp [saving, cwSaving, edgeCost_ok hK (depot_edges hD h1).2 (k := 0) (by omega),
        edgeCost_ok hK (depot_edges hD h2).1 (k := 0) (by omega), edgeCost_ok hK h3 (k := 0) (by omega), bind,
        Except.bind, pure, Except.pure])
  have hsort := insertionSort_sortedDown (saving G cfg.alpha) (G.edges.filter (fun e => e.1 ≠ .source ∧ e.2 ≠ .sink))
  refine ⟨_, ?_, hsort, fun e he => hmem e (hsort.perm.mem_iff.1 he)⟩
  simp only [cwOrderedEdges, hmap, bind, Except.bind, pure, Except.pure, Except.ok.injEq]
  rw [← List.map_insertionSort (fun a b => saving G cfg.alpha b ≤ saving G cfg.alpha a) (fun a b => b.2 ≤ a.2)
    (fun e => (e, saving G cfg.alpha e)) _ (fun _ _ _ _ => Iff.rfl), List.map_map]
  exact List.map_id _

/-- The state of the algorithm stands for the routes `R`. -/
structure Stands (G : Net) (cfg : CWConfig) (s : CWState) (R : Node → List Node) : Prop where
  inv : ∃ L, CWInv G cfg s L ∧ ∀ v ∈ G.customers, R v = L (s.route v)
  alone : ∀ v ∈ G.customers, R v = [v] ↔ v ∉ s.processed

theorem within_active {lim : Option ℚ} {x : ℚ} : Within lim x ↔ ∀ d, active lim = some d → x ≤ d := by
  constructor
  · intro h d hd
    obtain ⟨h1, h2⟩ := active_eq_some.1 hd
    exact h d h1 h2
  · intro h d h1 h2
    exact h d (active_eq_some.2 ⟨h1, h2⟩)

/-- After adding `n` to the route of `e`. -/
theorem Stands.merge {s s' : CWState} {L R : Node → List Node} (hI : CWInv G cfg s L)
    (hR : ∀ v ∈ G.customers, R v = L (s.route v)) (halone : ∀ v ∈ G.customers, R v = [v] ↔ v ∉ s.processed) {e n : Node}
    (he : e ∈ G.customers) (hn : n ∈ G.customers) (hnp : n ∉ s.processed) (hne : n ∉ R e) {M : List Node}
    (hM : M.Perm (n :: R e)) (hI' : CWInv G cfg s' (fun x => if x = s.route e then M else L x))
    (hroute : ∀ x, s'.route x = if x = n then s.route e else s.route x)
    (hproc : ∀ x, x ∈ s'.processed ↔ x ∈ s.processed ∨ x = n ∨ x = e) :
    Stands G cfg s' (fun v => if v ∈ M then M else R v) := by
  have heR : e ∈ R e := by rw [hR e he]; exact (hI.mem e he e).2 ⟨he, rfl⟩
  have hlen : ∀ v, M ≠ [v] := by
    intro v h
    have h1 := hM.length_eq
    have h2 := List.length_pos_of_mem heR
    rw [h] at h1
    simp at h1
    rw [h1] at heR
    cases heR
  have key : ∀ v ∈ G.customers, v ∈ M ↔ s'.route v = s.route e := by
    intro v hv
    rw [hM.mem_iff, List.mem_cons, hroute, hR e he, hI.mem e he]
    by_cases h : v = n
    · simp [h]
    · simp [h, hv]
  have hval : ∀ v ∈ G.customers, (if v ∈ M then M else R v) = if s'.route v = s.route e then M else L (s'.route v) := by
    intro v hv
    by_cases h : v ∈ M
    · rw [if_pos h, if_pos ((key v hv).1 h)]
    · rw [if_neg h, if_neg (fun h' => h ((key v hv).2 h')), hR v hv, hroute, if_neg]
      rintro rfl
      exact h (hM.mem_iff.2 (by simp))
  refine ⟨⟨_, hI', hval⟩, ?_⟩
  intro v hv
  rw [hproc]
  by_cases h : v ∈ M
  · simp only [h, if_true]
    refine ⟨fun h' => absurd h' (hlen v), fun h' => ?_⟩
    push Not at h'
    have hv1 := (halone v hv).2 h'.1
    have : v ∈ R e := by
      have := hM.mem_iff.1 h
      rcases List.mem_cons.1 this with h'' | h''
      · exact absurd h'' h'.2.1
      · exact h''
    rw [hR e he, hI.mem e he] at this
    rw [hR v hv, this.2, ← hR e he] at hv1
    rw [hv1] at heR
    exact absurd (List.mem_singleton.1 heR).symm h'.2.2
  · simp only [h, if_false]
    rw [halone v hv]
    have h1 : v ≠ n := by rintro rfl; exact h (hM.mem_iff.2 (by simp))
    have h2 : v ≠ e := by rintro rfl; exact h (hM.mem_iff.2 (by simp [heR]))
    simp [h1, h2]

/-- The limits are tested exactly. -/
theorem fits_end {r : CWRoute} {Q : List Node} {e n : Node} (h : RouteInv G cfg r (Q ++ [e]))
    (hsym : (active cfg.duration).isSome → SymmetricTimes G ∧ G.service .source = 0 ∧ G.service .sink = 0) :
    FitsTogether G cfg (Q ++ [e] ++ [n]) ↔
      (∀ c, active cfg.cap = some c → ¬ (r.load + G.demand n > c)) ∧
      (∀ d, active cfg.duration = some d →
        ¬ (r.time + G.time e n + G.time n .sink + G.service n - G.time e .sink > d)) ∧
      (∀ m, active cfg.numStops = some m → ¬ ((r.nodes.length : ℚ) - 2 + 1 > m)) := by
  have h1 : Within cfg.cap ((Q ++ [e] ++ [n]).map G.demand).sum ↔
      ∀ c, active cfg.cap = some c → ¬ (r.load + G.demand n > c) := by
    rw [within_active]
    refine forall₂_congr (fun c hc => ?_)
    rw [h.load (by simp [hc]), List.map_append, List.sum_append, not_lt]
    simp
  have h2 : Within cfg.numStops ((Q ++ [e] ++ [n]).length : ℚ) ↔
      ∀ m, active cfg.numStops = some m → ¬ ((r.nodes.length : ℚ) - 2 + 1 > m) := by
    rw [within_active]
    refine forall₂_congr (fun m hm => ?_)
    rw [h.graph.length, not_lt]
    have : ((routeOf (Q ++ [e])).length : ℚ) - 2 + 1 = ((Q ++ [e] ++ [n]).length : ℚ) := by
      simp only [routeOf, List.length_cons, List.length_append, List.length_nil]
      push_cast
      ring
    rw [this]
  have h3 : Within cfg.duration (Spec.duration G (routeOf (Q ++ [e] ++ [n]))) ↔ ∀ d, active cfg.duration = some d →
      ¬ (r.time + G.time e n + G.time n .sink + G.service n - G.time e .sink > d) := by
    rw [within_active]
    refine forall₂_congr (fun d hd => ?_)
    obtain ⟨s1, s2, s3⟩ := hsym (by simp [hd])
    rw [h.time s1 (by simp [hd]), not_lt]
    have : Spec.duration G (routeOf (Q ++ [e] ++ [n])) = travel G (routeOf (Q ++ [e])) + ((Q ++ [e]).map G.service).sum +
        G.time e n + G.time n .sink + G.service n - G.time e .sink := by
      unfold Spec.duration travel
      have key : ∀ (P : List Node) (a b : Node), legSum G.time (P ++ [a, b]) = legSum G.time (P ++ [a]) + G.time a b := by
        intro P a b
        simp only [legSum_eq, consecutive_append_two, List.map_append, List.sum_append, List.map_cons, List.map_nil,
          List.sum_cons, List.sum_nil, add_zero]
      have e1 : routeOf (Q ++ [e] ++ [n]) = (Node.source :: (Q ++ [e])) ++ [n, Node.sink] := by simp [routeOf]
      have e2 : (Node.source :: (Q ++ [e])) ++ [n] = (Node.source :: Q) ++ [e, n] := by simp
      have e3 : routeOf (Q ++ [e]) = (Node.source :: Q) ++ [e, Node.sink] := by simp [routeOf]
      rw [e1, key, e2, key, e3, key]
      simp only [List.cons_append, List.map_cons, List.map_append, List.map_nil, List.sum_cons, List.sum_append, List.sum_nil,
        s2, s3]
      ring
    rw [this]
  constructor
  · rintro ⟨a, b, c⟩
    exact ⟨h1.1 a, h3.1 c, h2.1 b⟩
  · rintro ⟨a, b, c⟩
    exact ⟨h1.2 a, h2.2 c, h3.2 b⟩

theorem fits_start {r : CWRoute} {Q : List Node} {e n : Node} (h : RouteInv G cfg r (e :: Q)) (he : e ∈ G.customers)
    (hn : n ∈ G.customers) (hen : n ∈ G.succ e) (hne : e ∈ G.succ n)
    (hsym : (active cfg.duration).isSome → SymmetricTimes G ∧ G.service .source = 0 ∧ G.service .sink = 0) :
    FitsTogether G cfg (n :: e :: Q) ↔
      (∀ c, active cfg.cap = some c → ¬ (r.load + G.demand n > c)) ∧
      (∀ d, active cfg.duration = some d →
        ¬ (r.time + G.time e n + G.time n .sink + G.service n - G.time e .sink > d)) ∧
      (∀ m, active cfg.numStops = some m → ¬ ((r.nodes.length : ℚ) - 2 + 1 > m)) := by
  have h1 : Within cfg.cap ((n :: e :: Q).map G.demand).sum ↔
      ∀ c, active cfg.cap = some c → ¬ (r.load + G.demand n > c) := by
    rw [within_active]
    refine forall₂_congr (fun c hc => ?_)
    rw [h.load (by simp [hc]), not_lt, List.map_cons, List.sum_cons, add_comm]
  have h2 : Within cfg.numStops ((n :: e :: Q).length : ℚ) ↔
      ∀ m, active cfg.numStops = some m → ¬ ((r.nodes.length : ℚ) - 2 + 1 > m) := by
    rw [within_active]
    refine forall₂_congr (fun m hm => ?_)
    rw [h.graph.length, not_lt]
    have : ((routeOf (e :: Q)).length : ℚ) - 2 + 1 = ((n :: e :: Q).length : ℚ) := by
      simp only [routeOf, List.length_cons, List.length_append, List.length_nil]
      push_cast
      ring
    rw [this]
  have h3 : Within cfg.duration (Spec.duration G (routeOf (n :: e :: Q))) ↔ ∀ d, active cfg.duration = some d →
      ¬ (r.time + G.time e n + G.time n .sink + G.service n - G.time e .sink > d) := by
    rw [within_active]
    refine forall₂_congr (fun d hd => ?_)
    obtain ⟨s1, s2, s3⟩ := hsym (by simp [hd])
    rw [h.time s1 (by simp [hd]), not_lt]
    have hdep : ∀ v ∈ G.customers, G.time .source v = G.time v .sink := by
      intro v hv
      obtain ⟨a, b, c⟩ := mem_customers.1 hv
      cases v with
      | source => exact absurd rfl b
      | sink => exact absurd rfl c
      | cust k => exact s1.depot k a
    have : Spec.duration G (routeOf (n :: e :: Q)) = travel G (routeOf (e :: Q)) + ((e :: Q).map G.service).sum +
        G.time e n + G.time n .sink + G.service n - G.time e .sink := by
      unfold Spec.duration travel
      rw [routeOf_cons, routeOf_cons, List.cons_append]
      simp only [legSum, List.map_cons, List.map_append, List.map_nil, List.sum_cons, List.sum_append, List.sum_nil,
        s2, s3, s1.sym e n hen hne, hdep n hn, hdep e he]
      ring
    rw [this]
  constructor
  · rintro ⟨a, b, c⟩
    exact ⟨h1.1 a, h3.1 c, h2.1 b⟩
  · rintro ⟨a, b, c⟩
    exact ⟨h1.2 a, h2.2 c, h3.2 b⟩

/-- Processing an arc is offering it. -/
theorem cwProcessEdge_offers (hD : DepotConnected G) (hK : CostsFor G 1)
    (hsym : (active cfg.duration).isSome → SymmetricTimes G ∧ G.service .source = 0 ∧ G.service .sink = 0)
    {s : CWState} {R : Node → List Node} (h : Stands G cfg s R) {i j : Node} (hi : i ∈ G.customers) (hj : j ∈ G.customers)
    (hedge : j ∈ G.succ i) :
    ∃ s', cwProcessEdge G cfg s (i, j) = .ok s' ∧ Stands G cfg s' (offerArc G (FitsTogether G cfg) R (i, j)) := by
  obtain ⟨⟨L, hI, hR⟩, halone⟩ := id h
  have hmemR : ∀ v ∈ G.customers, v ∈ R v := fun v hv => by rw [hR v hv]; exact (hI.mem v hv v).2 ⟨hv, rfl⟩
  have hnodes : ∀ e ∈ G.customers, ∀ n ∈ G.customers, n ∈ (s.heap (s.route e)).nodes ↔ n ∈ R e := by
    intro e he n hn
    obtain ⟨_, h2, h3⟩ := mem_customers.1 hn
    rw [(hI.inv e he).graph.nodes_iff, hR e he, routeOf]
    simp [h2, h3]
  have hother : ∀ e ∈ G.customers, ∀ n ∈ G.customers, n ∉ s.processed → (n ∉ R e ↔ e ≠ n) := by
    intro e he n hn hp
    constructor
    · rintro h1 rfl
      exact h1 (hmemR e he)
    · intro h1 h2
      rw [hR e he, hI.mem e he] at h2
      have h3 := (halone n hn).2 hp
      rw [hR n hn, h2.2, ← hR e he] at h3
      have := hmemR e he
      rw [h3] at this
      exact h1 (List.mem_singleton.1 this)
  have hend : ∀ e ∈ G.customers, (e, Node.sink) ∈ (s.heap (s.route e)).edges ↔ (R e).getLast? = some e := by
    intro e he
    have hinv := hI.inv e he
    rw [hinv.graph.edges_iff, hR e he]
    have hsnk : Node.sink ∉ Node.source :: L (s.route e) := by
      have h' : ((Node.source :: L (s.route e)) ++ [Node.sink]).Nodup := by simpa [routeOf] using hinv.graph.nodup
      intro hh
      exact (List.nodup_append.1 h').2.2 _ hh .sink (by simp) rfl
    constructor
    · intro hadj
      obtain ⟨Q0, hQ0⟩ := last_of_consecutive (P := Node.source :: L (s.route e)) hsnk (by simpa [routeOf] using hadj)
      cases Q0 with
      | nil =>
        simp only [List.nil_append, List.cons.injEq] at hQ0
        exact absurd hQ0.1.symm (mem_customers.1 he).2.1
      | cons a Q =>
        simp only [List.cons_append, List.cons.injEq] at hQ0
        rw [hQ0.2]
        simp
    · intro hl
      obtain ⟨Q, hQ⟩ := List.getLast?_eq_some_iff.1 hl
      rw [hQ, routeOf_append_one, consecutive_append_two]
      simp
  have hstart : ∀ e ∈ G.customers, (Node.source, e) ∈ (s.heap (s.route e)).edges ↔ (R e).head? = some e := by
    intro e he
    have hinv := hI.inv e he
    rw [hinv.graph.edges_iff, hR e he]
    constructor
    · intro hadj
      obtain ⟨Q0, hQ0⟩ := head_of_consecutive (List.nodup_cons.1 hinv.graph.nodup).1 hadj
      cases hL : L (s.route e) with
      | nil =>
        rw [hL] at hQ0
        simp only [List.nil_append, List.cons.injEq] at hQ0
        exact absurd hQ0.1.symm (mem_customers.1 he).2.2
      | cons a Q =>
        rw [hL] at hQ0
        simp only [List.cons_append, List.cons.injEq] at hQ0
        rw [hQ0.1]
        rfl
    · intro hl
      obtain ⟨Q, hQ⟩ : ∃ Q, L (s.route e) = e :: Q := by
        cases hL : L (s.route e) with
        | nil => rw [hL] at hl; cases hl
        | cons a Q =>
          rw [hL] at hl
          simp only [List.head?_cons, Option.some.injEq] at hl
          exact ⟨Q, by rw [hl]⟩
      rw [hQ, routeOf_cons, consecutive_cons_cons]
      simp
  have second : ∃ s', (do
      let second ← if ¬ (G.hasEdge j i) then pure false else if i ∈ s.processed then pure false else do
        let ok ← cwConstraintsMet G cfg s j i
        pure (ok && decide ((Node.source, j) ∈ (s.heap (s.route j)).edges))
      if second then cwMerge G cfg s j i .source else pure s) = .ok s' ∧
      Stands G cfg s' (open Classical in
        if i ≠ j ∧ i ∈ G.succ j ∧ R i = [i] ∧ (R j).head? = some j ∧ FitsTogether G cfg (i :: R j) then
          fun v => if v ∈ i :: R j then i :: R j else R v
        else R) := by
    by_cases hji : i ∈ G.succ j
    · by_cases hip : i ∈ s.processed
      · refine ⟨s, by simp [Net.hasEdge, hji, hip, bind, Except.bind, pure, Except.pure], ?_⟩
        rw [if_neg (fun hh => absurd hip ((halone i hi).1 hh.2.2.1))]
        exact h
      · obtain ⟨b, hb, hb2⟩ := cwConstraintsMet_spec (cfg := cfg) (s := s) hD hj hi hji
        by_cases hadj : (Node.source, j) ∈ (s.heap (s.route j)).edges
        · have hhead := (hstart j hj).1 hadj
          obtain ⟨Q, hQ⟩ : ∃ Q, R j = j :: Q := by
            cases hRj : R j with
            | nil => rw [hRj] at hhead; cases hhead
            | cons a Q =>
              rw [hRj] at hhead
              simp only [List.head?_cons, Option.some.injEq] at hhead
              exact ⟨Q, by rw [hhead]⟩
          have hfit := fits_start (cfg := cfg) (Q := Q) (e := j) (n := i) (r := s.heap (s.route j))
            (by rw [← hQ, hR j hj]; exact hI.inv j hj) hj hi hji hedge hsym
          rw [← hQ] at hfit
          rw [hnodes j hj i hi, hother j hj i hi hip, ← hfit] at hb2
          cases b with
          | false =>
            refine ⟨s, by simp [Net.hasEdge, hji, hip, hb, bind, Except.bind, pure, Except.pure], ?_⟩
            rw [if_neg (fun hh => absurd (hb2.2 ⟨fun h' => hh.1 h'.symm, hh.2.2.2.2⟩) (by simp))]
            exact h
          | true =>
            obtain ⟨b1, b2⟩ := hb2.1 rfl
            have hni : i ∉ R j := (hother j hj i hi hip).2 b1
            obtain ⟨s', e1, e2, e3, e4⟩ := cwMerge_source_ok hD hK hI hj hi hji hedge hip
              ⟨fun hh => hni ((hnodes j hj i hi).1 hh), hfit.1 b2⟩ hadj
            refine ⟨s', by simp [Net.hasEdge, hji, hip, hb, hadj, bind, Except.bind, pure, Except.pure, e1], ?_⟩
            rw [if_pos ⟨fun h' => b1 h'.symm, hji, (halone i hi).2 hip, hhead, b2⟩]
            rw [← hR j hj] at e2
            exact Stands.merge hI hR halone hj hi hip hni (List.Perm.refl _) e2 e3 e4
        · refine ⟨s, by simp [Net.hasEdge, hji, hip, hb, hadj, bind, Except.bind, pure, Except.pure], ?_⟩
          rw [if_neg (fun hh => hadj ((hstart j hj).2 hh.2.2.2.1))]
          exact h
    · refine ⟨s, by simp [Net.hasEdge, hji, bind, Except.bind, pure, Except.pure], ?_⟩
      rw [if_neg (fun hh => hji hh.2.1)]
      exact h
  unfold cwProcessEdge offerArc
  simp only
  by_cases hjp : j ∈ s.processed
  · obtain ⟨s', e1, e2⟩ := second
    refine ⟨s', ?_, ?_⟩
    · rw [← e1]
      simp [hjp, bind, Except.bind, pure, Except.pure]
    · rw [if_neg (fun hh => absurd hjp ((halone j hj).1 hh.2.1))]
      exact e2
  · obtain ⟨b, hb, hb2⟩ := cwConstraintsMet_spec (cfg := cfg) (s := s) hD hi hj hedge
    by_cases hadj : (i, Node.sink) ∈ (s.heap (s.route i)).edges
    · have hlast := (hend i hi).1 hadj
      obtain ⟨Q, hQ⟩ := List.getLast?_eq_some_iff.1 hlast
      have hfit := fits_end (cfg := cfg) (Q := Q) (e := i) (n := j) (r := s.heap (s.route i))
        (by rw [← hQ, hR i hi]; exact hI.inv i hi) hsym
      rw [← hQ] at hfit
      rw [hnodes i hi j hj, hother i hi j hj hjp, ← hfit] at hb2
      cases b with
      | false =>
        obtain ⟨s', e1, e2⟩ := second
        refine ⟨s', ?_, ?_⟩
        · rw [← e1]
          simp [hjp, hb, bind, Except.bind, pure, Except.pure]
        · rw [if_neg (fun hh => absurd (hb2.2 ⟨hh.1, hh.2.2.2⟩) (by simp))]
          exact e2
      | true =>
        obtain ⟨b1, b2⟩ := hb2.1 rfl
        have hni : j ∉ R i := (hother i hi j hj hjp).2 b1
        obtain ⟨s', e1, e2, e3, e4⟩ := cwMerge_sink_ok hD hK hI hi hj hedge hjp
          ⟨fun hh => hni ((hnodes i hi j hj).1 hh), hfit.1 b2⟩ hadj
        refine ⟨s', by simp [hjp, hb, hadj, bind, Except.bind, pure, Except.pure, e1], ?_⟩
        rw [if_pos ⟨b1, (halone j hj).2 hjp, hlast, b2⟩]
        rw [← hR i hi] at e2
        exact Stands.merge hI hR halone hi hj hjp hni (List.perm_append_singleton _ _) e2 e3 e4
    · obtain ⟨s', e1, e2⟩ := second
      refine ⟨s', ?_, ?_⟩
      · rw [← e1]
        simp [hjp, hb, hadj, bind, Except.bind, pure, Except.pure]
      · rw [if_neg (fun hh => hadj ((hend i hi).2 hh.2.2.1))]
        exact e2

theorem cwLoop_stands (hG : WellFormed G) (hD : DepotConnected G) (hK : CostsFor G 1)
    (hsym : (active cfg.duration).isSome → SymmetricTimes G ∧ G.service .source = 0 ∧ G.service .sink = 0) :
    ∃ es s, SortedDown (saving G cfg.alpha) (G.edges.filter (fun e => e.1 ≠ .source ∧ e.2 ≠ .sink)) es ∧
      cwLoop G cfg = .ok s ∧ Stands G cfg s (es.foldl (offerArc G (FitsTogether G cfg)) (fun v => [v])) := by
  obtain ⟨es, ee, hsort, hes⟩ := cwOrderedEdges_sorted (cfg := cfg) hG hD hK
  obtain ⟨s0, e0, i0, p0⟩ := cwInit_ok (cfg := cfg) hG.nodes_nodup hD hK
  have h0 : Stands G cfg s0 (fun v => [v]) := by
    refine ⟨⟨_, i0, fun v hv => ?_⟩, fun v hv => by simp [p0]⟩
    have := (i0.mem v hv v).2 ⟨hv, rfl⟩
    rw [← List.mem_singleton.1 this]
  have key : ∀ (l : List (Node × Node)) (s : CWState) (R : Node → List Node),
      (∀ e ∈ l, e.1 ∈ G.customers ∧ e.2 ∈ G.customers ∧ e.2 ∈ G.succ e.1) → Stands G cfg s R →
      ∃ s', l.foldlM (cwProcessEdge G cfg) s = .ok s' ∧ Stands G cfg s' (l.foldl (offerArc G (FitsTogether G cfg)) R) := by
    intro l
    induction l with
    | nil => intro s R _ h; exact ⟨s, rfl, h⟩
    | cons e l ih =>
      intro s R hl h
      obtain ⟨h1, h2, h3⟩ := hl e (by simp)
      obtain ⟨s1, e1, e2⟩ := cwProcessEdge_offers hD hK hsym h h1 h2 h3
      obtain ⟨s', e3, e4⟩ := ih s1 _ (fun e he => hl e (by simp [he])) e2
      refine ⟨s', ?_, e4⟩
      rw [List.foldlM_cons, e1]
      exact e3
  obtain ⟨s, hs, hst⟩ := key es s0 _ hes h0
  exact ⟨es, s, hsort, by simp [cwLoop, e0, ee, hs, bind, Except.bind], hst⟩

/-- **C76.** The savings heuristic is the textbook one: it starts with one route per customer, takes the arcs between customers in the
order of decreasing savings (equal ones in the order of the graph), and offers each of them once; its result are the routes that are left at
the end, whatever the order of the sets.  The limits are tested exactly, as long as the times are symmetric if there is a maximum
duration. -/
theorem C76_by_savings (G : Net) (cfg : CWConfig) (o : CWOracle) (hG : WellFormed G) (hD : DepotConnected G) (hK : CostsFor G 1)
    (ho : o.Valid)
    (hsym : (active cfg.duration).isSome → SymmetricTimes G ∧ G.service .source = 0 ∧ G.service .sink = 0) :
    ∃ val rs es, cwRun G cfg o = .ok (val, rs) ∧
      SortedDown (saving G cfg.alpha) (G.edges.filter (fun e => e.1 ≠ .source ∧ e.2 ≠ .sink)) es ∧
      ∀ r, r ∈ rs ↔ ∃ v ∈ G.customers, r = routeOf (es.foldl (offerArc G (FitsTogether G cfg)) (fun v => [v]) v) := by
  obtain ⟨es, s, h1, h2, ⟨L, hI, hR⟩, _⟩ := cwLoop_stands (cfg := cfg) hG hD hK hsym
  refine ⟨_, _, es, by simp only [cwRun, h2, bind, Except.bind, pure, Except.pure]; rfl, h1, ?_⟩
  have hpath : ∀ v ∈ G.customers, o.path (s.heap (s.route v)) = routeOf (L (s.route v)) := by
    intro v hv
    have hg := (hI.inv v hv).graph
    exact shortest_eq hg (ho.path _ ⟨_, shortest_exists hg⟩)
  intro r
  rw [List.mem_map]
  constructor
  · rintro ⟨id, hid, rfl⟩
    rw [(ho.order _).mem_iff, List.mem_dedup, List.mem_map] at hid
    obtain ⟨v, hv, rfl⟩ := hid
    exact ⟨v, hv, by rw [hR v hv, hpath v hv]⟩
  · rintro ⟨v, hv, rfl⟩
    refine ⟨s.route v, ?_, by rw [hR v hv, hpath v hv]⟩
    rw [(ho.order _).mem_iff, List.mem_dedup, List.mem_map]
    exact ⟨v, hv, rfl⟩

/-- The routes are disjoint. -/
structure Apart (R : Node → List Node) : Prop where
  own : ∀ v, v ∈ R v
  same : ∀ u v, u ∈ R v → R u = R v

theorem Apart.join {R : Node → List Node} (h : Apart R) {a b : Node} {M : List Node} (hb : R b = [b]) (hM : M.Perm (b :: R a)) :
    Apart (fun v => if v ∈ M then M else R v) := by
  have hmem : ∀ v, v ∈ M ↔ v = b ∨ v ∈ R a := by
    intro v
    rw [hM.mem_iff, List.mem_cons]
  refine ⟨fun v => ?_, fun u v huv => ?_⟩
  · by_cases hv : v ∈ M
    · simp only [hv, if_true]
    · simp only [hv, if_false]
      exact h.own v
  · by_cases hv : v ∈ M
    · simp only [hv, if_true] at huv ⊢
      rw [if_pos huv]
    · simp only [hv, if_false] at huv ⊢
      have hu : u ∉ M := by
        intro hu
        rcases (hmem u).1 hu with rfl | hu
        · have := h.same _ _ huv
          rw [hb] at this
          have hv' := h.own v
          rw [← this] at hv'
          exact hv ((hmem v).2 (.inl (List.mem_singleton.1 hv')))
        · have hv' := h.own v
          rw [← h.same _ _ huv, h.same _ _ hu] at hv'
          exact hv ((hmem v).2 (.inr hv'))
      rw [if_neg hu]
      exact h.same _ _ huv

theorem offerArc_apart {fits : List Node → Prop} {R : Node → List Node} (h : Apart R) (e : Node × Node) :
    Apart (offerArc G fits R e) := by
  unfold offerArc
  split
  · next hc => exact h.join hc.2.1 (List.perm_append_singleton _ _)
  · split
    · next hc => exact h.join hc.2.2.1 (List.Perm.refl _)
    · exact h

/-- Routes are never cut. -/
theorem offerArc_keeps {fits : List Node → Prop} {R : Node → List Node} (h : Apart R) (e : Node × Node) {p : Node × Node}
    (hp : p ∈ consecutive (R p.1)) : p ∈ consecutive (offerArc G fits R e p.1) := by
  have hlong : ∀ b, R b = [b] → p.1 ≠ b := by
    rintro b hb rfl
    rw [hb] at hp
    simp [consecutive_one] at hp
  unfold offerArc
  split
  · next hc =>
    simp only
    split
    · next hm =>
      rcases List.mem_append.1 hm with hm | hm
      · rw [h.same _ _ hm] at hp
        exact consecutive_part (pre := []) hp
      · exact absurd (List.mem_singleton.1 hm) (hlong _ hc.2.1)
    · exact hp
  · split
    · next hc =>
      simp only
      split
      · next hm =>
        rcases List.mem_cons.1 hm with hm | hm
        · exact absurd hm (hlong _ hc.2.2.1)
        · rw [h.same _ _ hm] at hp
          simpa using consecutive_part (pre := [e.1]) (post := []) hp
      · exact hp
    · exact hp

/-- **C76 (the best saving is made).** If two customers can be visited on one route, and no arc saves as much as the arc between them, then
the result drives along this arc. -/
theorem C76_best_saving (G : Net) (cfg : CWConfig) (o : CWOracle) (hG : WellFormed G) (hD : DepotConnected G) (hK : CostsFor G 1)
    (ho : o.Valid)
    (hsym : (active cfg.duration).isSome → SymmetricTimes G ∧ G.service .source = 0 ∧ G.service .sink = 0)
    {i j : Node} (hi : i ∈ G.customers) (hj : j ∈ G.customers) (hij : i ≠ j) (hedge : j ∈ G.succ i)
    (hbest : ∀ u ∈ G.customers, ∀ v ∈ G.customers, v ∈ G.succ u → (u, v) ≠ (i, j) →
      saving G cfg.alpha (u, v) < saving G cfg.alpha (i, j))
    (hfits : FitsTogether G cfg [i, j]) :
    ∀ val rs, cwRun G cfg o = .ok (val, rs) → ∃ r ∈ rs, (i, j) ∈ consecutive r := by
  intro val rs hrun
  obtain ⟨val', rs', es, h1, h2, h3⟩ := C76_by_savings G cfg o hG hD hK ho hsym
  obtain ⟨es', e1, e2, e3⟩ := cwOrderedEdges_sorted (cfg := cfg) hG hD hK
  rw [hrun] at h1
  cases h1
  have hmem : (i, j) ∈ es := by
    refine h2.perm.mem_iff.2 (List.mem_filter.2 ⟨(Net.mem_edges hG _ _).2 hedge, ?_⟩)
    simp [(mem_customers.1 hi).2.1, (mem_customers.1 hj).2.2]
  obtain ⟨es2, rfl⟩ : ∃ es2, es = (i, j) :: es2 := by
    cases hes : es with
    | nil => rw [hes] at hmem; cases hmem
    | cons e es2 =>
      by_cases he : e = (i, j)
      · exact ⟨es2, by rw [he]⟩
      · exfalso
        rw [hes] at hmem h2
        have hm2 : (i, j) ∈ es2 := by
          rcases List.mem_cons.1 hmem with h | h
          · exact absurd h.symm he
          · exact h
        have hle := (List.pairwise_cons.1 h2.sorted).1 _ hm2
        obtain ⟨c1, c2, c3⟩ := e3 e (e2.perm.mem_iff.2 (h2.perm.mem_iff.1 (by simp)))
        exact absurd (hbest e.1 c1 e.2 c2 c3 he) (not_lt.2 hle)
  refine ⟨_, (h3 _).2 ⟨i, hi, rfl⟩, ?_⟩
  have key : ∀ (l : List (Node × Node)) (R : Node → List Node), Apart R → (i, j) ∈ consecutive (R i) →
      (i, j) ∈ consecutive (l.foldl (offerArc G (FitsTogether G cfg)) R i) := by
    intro l
    induction l with
    | nil => exact fun R _ h => h
    | cons e l ih => exact fun R hR h => ih _ (offerArc_apart hR e) (offerArc_keeps hR e h)
  have hA : Apart (fun v : Node => [v]) := ⟨fun v => by simp, fun u v h => by simpa using h⟩
  have := key es2 _ (offerArc_apart (G := G) (fits := FitsTogether G cfg) hA (i, j)) (by
    unfold offerArc
    rw [if_pos ⟨hij, rfl, rfl, hfits⟩]
    simp [consecutive_cons_cons])
  exact consecutive_part (pre := [.source]) (post := [.sink]) this

/-- The heuristic's configuration for a problem with one capacity: its limits, and the weight of the arc in the savings. -/
def Spec.weighted (P : Vrp) (alpha : ℚ) : CWConfig where
  cap := P.cap0
  duration := P.duration.limit
  numStops := P.numStops.stops.map (fun n : Nat => (n : ℚ))
  alpha := alpha

/-- **C76 (the weights).** The initial solution of a capacitated problem consists of the routes of the savings heuristic, run with the arc
weighted 1/10, 2/10, ... and 19/10, followed by the routes of the greedy heuristic. -/
theorem C76_weights (P : Vrp) (N : Net) (o : ℚ → CWOracle) (fuel : Nat) (hplain : P.plain) {rs : List (List Node)}
    (h : P.initialSolution N o fuel = .ok (some rs)) :
    ∃ (f : Nat → List (List Node)) (val : ℚ) (rg : List (List Node)),
      (∀ k : Nat, 1 ≤ k → k ≤ 19 → ∃ val, cwRun N (weighted P ((k : ℚ) / 10)) (o ((k : ℚ) / 10)) = .ok (val, f k)) ∧
      greedyRun N { cap := P.cap0
                    numStops := P.numStops.stops
                    duration := P.duration.limit } fuel = .ok (some (val, rg)) ∧
      ∀ r, r ∈ rs ↔ (∃ k, 1 ≤ k ∧ k ≤ 19 ∧ r ∈ f k) ∨ r ∈ rg := by
  unfold Vrp.initialSolution at h
  rw [if_pos hplain] at h
  have key : ∀ (as : List ℚ) (acc all : List (List Node)), as.foldlM (fun acc a =>
      match cwRun N (weighted P a) (o a) with
      | .error e => .error e
      | .ok (_, rs) => .ok (acc ++ rs)) acc = (.ok all : Py _) →
      ∃ g : ℚ → List (List Node), (∀ a ∈ as, ∃ val, cwRun N (weighted P a) (o a) = .ok (val, g a)) ∧
        ∀ r, r ∈ all ↔ r ∈ acc ∨ ∃ a ∈ as, r ∈ g a := by
    intro as
    induction as with
    | nil =>
      intro acc all hall
      simp only [List.foldlM_nil, pure, Except.pure, Except.ok.injEq] at hall
      exact ⟨fun _ => [], by simp, by simp [hall]⟩
    | cons a as ih =>
      intro acc all hall
      rw [List.foldlM_cons] at hall
      cases hrun : cwRun N (weighted P a) (o a) with
      | error e => simp only [hrun, bind, Except.bind] at hall; cases hall
      | ok q =>
        obtain ⟨val, rs1⟩ := q
        simp only [hrun, bind, Except.bind] at hall
        obtain ⟨g, h1, h2⟩ := ih _ _ hall
        have hg : ∀ b ∈ as, g b = if b = a then rs1 else g b := by
          intro b hb
          by_cases hba : b = a
          · obtain ⟨v, hv⟩ := h1 b hb
            rw [hba, hrun] at hv
            simp only [Except.ok.injEq, Prod.mk.injEq] at hv
            rw [if_pos hba, hba, hv.2]
          · rw [if_neg hba]
        refine ⟨fun b => if b = a then rs1 else g b, ?_, ?_⟩
        · intro b hb
          rcases List.mem_cons.1 hb with rfl | hb
          · exact ⟨val, by simp only [hrun, if_true]⟩
          · simp only [← hg b hb]
            exact h1 b hb
        · intro r
          rw [h2, List.mem_append, or_assoc]
          refine or_congr_right ?_
          rw [List.exists_mem_cons_iff]
          simp only [if_true]
          refine or_congr_right (exists_congr (fun b => and_congr_right (fun hb => ?_)))
          rw [← hg b hb]
  have hn : P.numStops.stops.map (fun n => (n : ℚ)) = P.numStops.stops.map (fun n : Nat => (n : ℚ)) := by
    cases P.numStops.stops <;> rfl
  rw [hn] at h
  cases hcw : cwRoutes N P.cap0 P.duration.limit (P.numStops.stops.map (fun n : Nat => (n : ℚ))) o with
  | error e => simp only [hcw] at h; cases h
  | ok all =>
    simp only [hcw] at h
    obtain ⟨g, h1, h2⟩ := key alphas [] all hcw
    have hal : ∀ a : ℚ, a ∈ alphas ↔ ∃ k : Nat, 1 ≤ k ∧ k ≤ 19 ∧ a = (k : ℚ) / 10 := by
      intro a
      simp only [alphas, List.mem_map, List.mem_range]
      constructor
      · rintro ⟨x, hx, rfl⟩
        exact ⟨x + 1, by omega, by omega, rfl⟩
      · rintro ⟨k, hk1, hk2, rfl⟩
        exact ⟨k - 1, by omega, by rw [Nat.sub_add_cancel hk1]⟩
    split at h
    · cases h
    · cases h
    · next val rg hgr =>
      simp only [Except.ok.injEq, Option.some.injEq] at h
      subst h
      refine ⟨fun k => g ((k : ℚ) / 10), val, rg, fun k hk1 hk2 => h1 _ ((hal _).2 ⟨k, hk1, hk2, rfl⟩), hgr, fun r => ?_⟩
      rw [List.mem_append, h2]
      refine or_congr_left ⟨?_, ?_⟩
      · rintro (hr | ⟨a, ha, hr⟩)
        · cases hr
        · obtain ⟨k, hk1, hk2, rfl⟩ := (hal a).1 ha
          exact ⟨k, hk1, hk2, hr⟩
      · rintro ⟨k, hk1, hk2, hr⟩
        exact .inr ⟨_, (hal _).2 ⟨k, hk1, hk2, rfl⟩, hr⟩

end

end Vrpy
