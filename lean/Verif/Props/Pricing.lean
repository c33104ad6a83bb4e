import Verif.Proofs.Pricing
import Verif.Proofs.Prune
import Mathlib.Data.List.Sublists
import Mathlib.Data.List.Permutation

/-!
# C14, C15: reduced costs and pricing strategies
-/

namespace Vrpy

open Spec

/-- **C14.** The weights of the arcs of any route, simple or not, add up to its cost minus the duals of its customers
(once per visit) minus the dual of the fleet bound of the vehicle type. -/
theorem C14_reduced_costs {G : Net} {d : Duals} {k : Nat} {w : Node → Node → ℚ} (hG : WellFormed G)
    (hnd : (d.visit.map Prod.fst).Nodup) (hs : Node.source ∉ d.visit.map Prod.fst)
    (h : reducedCosts G d k none = .ok w) {r : List Node} (hr : IsRoute G r) :
    legSum w r = cost G k r - ((stops r).map (fun v => (dget d.visit v).getD 0)).sum - (d.fleet.getD []).getD k 0 := by
  obtain ⟨mid, rfl, hmid, halong⟩ := hr
  have hmid' : ∀ v ∈ mid, v ∈ G.customers := by
    intro v hv
    obtain ⟨⟨n, rfl⟩, hm⟩ := hmid v hv
    exact mem_customers.2 ⟨hm, by simp, by simp⟩
  rw [stops_routeOf hmid']
  have hcongr : ∀ u v, (u, v) ∈ consecutive (routeOf mid) →
      w u v = (G.cost u v).getD k 0 - (d.dual u + if u = .source then d.fleetDual k else 0) := by
    intro u v huv
    have hv : v ∈ G.succ u := (along_iff _ _).1 halong u v huv
    have hw := reducedCosts_inv h u v ((Net.mem_edges hG u v).2 hv)
    obtain ⟨_, _, a, ha, _, hw⟩ := edgeWeight_inv hnd hw
    have : a = 1 := by
      have := ha 1
      simp only [spanWeight, mul_one, Except.ok.injEq] at this
      exact this.symm
    rw [hw, this]
    ring
  rw [legSum_congr hcongr, legSum_sub]
  unfold cost
  have hdrop : (routeOf mid).dropLast = .source :: mid := by
    simp [routeOf, List.dropLast_cons_of_ne_nil]
  have hsource : d.dual .source = 0 := by
    simp [Duals.dual, (dget_eq_none d.visit .source).2 hs]
  have hsum : (mid.map (fun u => d.dual u + if u = Node.source then d.fleetDual k else 0)).sum =
      (mid.map (fun v => (dget d.visit v).getD 0)).sum := by
    congr 1
    apply List.map_congr_left
    intro v hv
    obtain ⟨⟨n, rfl⟩, _⟩ := hmid v hv
    simp [Duals.dual]
  rw [hdrop]
  simp only [List.map_cons, List.sum_cons, hsum, hsource, if_true]
  simp only [Duals.fleetDual]
  ring

/-- **C14**, minimising the global span: in the pricing problem of a column `n` with makespan dual `p` the costs are
multiplied by `-p`. -/
theorem C14_reduced_costs_global_span {G : Net} {d : Duals} {k : Nat} {n : ColName} {p : ℚ} {w : Node → Node → ℚ}
    (hG : WellFormed G) (hnd : (d.visit.map Prod.fst).Nodup) (hs : Node.source ∉ d.visit.map Prod.fst)
    (hp : dget d.span n = some p) (h : reducedCosts G d k (some n) = .ok w) {r : List Node} (hr : IsRoute G r) :
    legSum w r = -p * cost G k r - ((stops r).map (fun v => (dget d.visit v).getD 0)).sum -
      (d.fleet.getD []).getD k 0 := by
  obtain ⟨mid, rfl, hmid, halong⟩ := hr
  have hmid' : ∀ v ∈ mid, v ∈ G.customers := by
    intro v hv
    obtain ⟨⟨n, rfl⟩, hm⟩ := hmid v hv
    exact mem_customers.2 ⟨hm, by simp, by simp⟩
  rw [stops_routeOf hmid']
  have hcongr : ∀ u v, (u, v) ∈ consecutive (routeOf mid) →
      w u v = -p * (G.cost u v).getD k 0 - (d.dual u + if u = .source then d.fleetDual k else 0) := by
    intro u v huv
    have hv : v ∈ G.succ u := (along_iff _ _).1 halong u v huv
    have hw := reducedCosts_inv h u v ((Net.mem_edges hG u v).2 hv)
    obtain ⟨_, _, a, ha, _, hw⟩ := edgeWeight_inv hnd hw
    have : a = -p := by
      have := ha 1
      simp only [spanWeight, hp, one_mul, mul_one, Except.ok.injEq] at this
      exact this.symm
    rw [hw, this]
    ring
  rw [legSum_congr hcongr, legSum_sub, legSum_mul]
  unfold cost
  have hdrop : (routeOf mid).dropLast = .source :: mid := by
    simp [routeOf, List.dropLast_cons_of_ne_nil]
  have hsource : d.dual .source = 0 := by
    simp [Duals.dual, (dget_eq_none d.visit .source).2 hs]
  have hsum : (mid.map (fun u => d.dual u + if u = Node.source then d.fleetDual k else 0)).sum =
      (mid.map (fun v => (dget d.visit v).getD 0)).sum := by
    congr 1
    apply List.map_congr_left
    intro v hv
    obtain ⟨⟨n, rfl⟩, _⟩ := hmid v hv
    simp [Duals.dual]
  rw [hdrop]
  simp only [List.map_cons, List.sum_cons, hsum, hsource, if_true]
  simp only [Duals.fleetDual]
  ring

/-- Reduced costs are defined whenever every arc has a cost for the vehicle type and the fleet bound, if any, has an
entry for it. -/
theorem C14_defined {G : Net} {d : Duals} {k : Nat} (hG : WellFormed G) (hc : CostsFor G (k + 1))
    (hf : ∀ ps, d.fleet = some ps → k < ps.length) : ∃ w, reducedCosts G d k none = .ok w := by
  unfold reducedCosts
  obtain ⟨ws, hws⟩ := py_mapM_total (f := fun e => edgeWeight G d k none e.1 e.2) (l := G.edges) (by
    rintro ⟨u, v⟩ he
    have hv := (Net.mem_edges hG u v).1 he
    have hlen : k < (G.cost u v).length := hc u v hv
    simp only [edgeWeight, edgeCost_of hv hlen, spanWeight, fleetWeight]
    cases hfl : d.fleet with
    | none => exact ⟨_, rfl⟩
    | some ps =>
      simp only
      by_cases hu : u = .source
      · rw [if_pos hu, List.getElem?_eq_getElem (hf ps hfl)]
        exact ⟨_, rfl⟩
      · rw [if_neg hu]
        exact ⟨_, rfl⟩)
  exact ⟨_, by rw [hws]⟩

/-- `H` has some of the nodes and arcs of `G`, with the same attributes. -/
structure Spec.IsSubgraph (H G : Net) : Prop where
  nodes : ∀ v ∈ H.nodes, v ∈ G.nodes
  arcs : ∀ u v, v ∈ H.succ u → v ∈ G.succ u
  demand : H.demand = G.demand
  collect : H.collect = G.collect
  service : H.service = G.service
  lower : H.lower = G.lower
  upper : H.upper = G.upper
  freq : H.freq = G.freq
  request : H.request = G.request
  cost : H.cost = G.cost
  time : H.time = G.time

/-- **C15.** Whatever the strategy, a subgraph of the network is searched, with unchanged attributes. -/
theorem C15_subgraph {G : Net} {d : Duals} {k : Nat} {route : Option ColName} {paths : PathsOracle} {s : Strategy}
    {w : Node → Node → ℚ} {S : SubGraph} (h : subProblem G d k route paths s = .ok (w, S)) : IsSubgraph S.G G := by
  have hrem : ∀ es, IsSubgraph (G.removeEdges es) G := fun es =>
    ⟨fun _ h => h, fun _ _ h => (List.mem_filter.1 h).1, rfl, rfl, rfl, rfl, rfl, rfl, rfl, rfl, rfl⟩
  unfold subProblem at h
  cases hw : reducedCosts G d k route with
  | error e => simp [hw] at h
  | ok w' =>
    simp only [hw] at h
    cases s with
    | exact =>
      simp only [Except.ok.injEq, Prod.mk.injEq] at h
      obtain ⟨_, rfl⟩ := h
      exact ⟨fun _ h => h, fun _ _ h => h, rfl, rfl, rfl, rfl, rfl, rfl, rfl, rfl, rfl⟩
    | bestEdges1 alpha =>
      simp only [removeEdges1] at h
      cases hm : largestDual d with
      | error e => simp [hm] at h
      | ok m =>
        simp only [hm, Except.ok.injEq, Prod.mk.injEq] at h
        obtain ⟨_, rfl⟩ := h
        exact hrem _
    | bestEdges2 ratio =>
      simp only [Except.ok.injEq, Prod.mk.injEq] at h
      obtain ⟨_, rfl⟩ := h
      exact hrem _
    | bestPaths beta =>
      simp only [removeEdges3] at h
      cases hm : positiveWeights G w' with
      | error e => simp [hm] at h
      | ok pw =>
        simp only [hm] at h
        by_cases hb : paths G pw beta = []
        · simp [hb] at h
        · rw [if_neg hb] at h
          simp only [Except.ok.injEq, Prod.mk.injEq] at h
          obtain ⟨_, rfl⟩ := h
          exact ⟨fun _ h => (List.mem_filter.1 h).1, fun _ _ h => (List.mem_filter.1 h).1, rfl, rfl, rfl, rfl, rfl, rfl,
            rfl, rfl, rfl⟩

/-- Sink can be reached from Source. -/
def Spec.Connected (G : Net) : Prop := ∃ p : List Node, IsPathIn G.edges p

private theorem reach_of_path {G : Net} (hG : WellFormed G) {p : List Node} {a z : Node} (h1 : p.head? = some a)
    (h2 : p.getLast? = some z) (h3 : Along (fun u v => (u, v) ∈ G.edges) p) : G.toDiGraph.Reach a z := by
  induction p generalizing a with
  | nil => simp at h1
  | cons x p ih =>
    simp only [List.head?_cons, Option.some.injEq] at h1
    subst h1
    cases p with
    | nil =>
      simp at h2
      subst h2
      exact Relation.ReflTransGen.refl
    | cons y p =>
      simp only [Along] at h3
      exact Relation.ReflTransGen.head ((Net.mem_edges hG x y).1 h3.1) (ih rfl (by simpa using h2) h3.2)

private theorem path_of_reach {G : Net} (hG : WellFormed G) {a z : Node} (h : G.toDiGraph.Reach a z) :
    ∃ p : List Node, p.head? = some a ∧ p.getLast? = some z ∧ Along (fun u v => (u, v) ∈ G.edges) p := by
  induction h using Relation.ReflTransGen.head_induction_on with
  | refl => exact ⟨[z], rfl, rfl, trivial⟩
  | @head x y hxy _ ih =>
    obtain ⟨p, h1, h2, h3⟩ := ih
    cases p with
    | nil => simp at h1
    | cons b p =>
      simp only [List.head?_cons, Option.some.injEq] at h1
      subst h1
      exact ⟨x :: b :: p, rfl, by simpa using h2, (Net.mem_edges hG x b).2 hxy, h3⟩

theorem net_hasPath_iff {G : Net} (hG : WellFormed G) : G.hasPath .source .sink = true ↔ Connected G := by
  unfold Net.hasPath
  rw [DiGraph.hasPath_iff _ (toDiGraph_wf hG)]
  constructor
  · intro h
    obtain ⟨p, h1, h2, h3⟩ := path_of_reach hG h
    exact ⟨p, h1, h2, h3⟩
  · rintro ⟨p, h1, h2, h3⟩
    exact reach_of_path hG h1 h2 h3

/-- **C15**, BestEdges1: exactly the arcs of cost at most `alpha` times the largest dual are kept, and the pricing
problem is skipped exactly when this cuts Source from Sink. -/
theorem C15_best_edges_1 {G : Net} {d : Duals} {k : Nat} {alpha : ℚ} {S : SubGraph} (hG : WellFormed G)
    (h : removeEdges1 G d k alpha = .ok S) :
    ∃ m, (m ∈ d.visit.map Prod.snd ++ d.span.map Prod.snd) ∧ (∀ x ∈ d.visit.map Prod.snd ++ d.span.map Prod.snd, x ≤ m) ∧
      S.G.nodes = G.nodes ∧ (∀ u v, v ∈ S.G.succ u ↔ v ∈ G.succ u ∧ (G.cost u v).getD k 0 ≤ alpha * m) ∧
      (S.run = true ↔ Connected S.G) := by
  unfold removeEdges1 at h
  cases hm : largestDual d with
  | error e => simp [hm] at h
  | ok m =>
    simp only [hm, Except.ok.injEq] at h
    subst h
    refine ⟨m, ?_, ?_, rfl, ?_, net_hasPath_iff (removeEdges_wf hG _)⟩
    · unfold largestDual at hm
      cases hl : d.visit.map Prod.snd ++ d.span.map Prod.snd with
      | nil => simp [hl] at hm
      | cons x xs =>
        simp only [hl, Except.ok.injEq] at hm
        rw [← hm]
        exact foldl_max_mem x xs
    · unfold largestDual at hm
      cases hl : d.visit.map Prod.snd ++ d.span.map Prod.snd with
      | nil => simp
      | cons x xs =>
        simp only [hl, Except.ok.injEq] at hm
        rw [← hm]
        intro y hy
        rcases List.mem_cons.1 hy with rfl | hy
        · exact (le_foldl_max _ _).1
        · exact (le_foldl_max _ _).2 y hy
    · intro u v
      simp only [Net.removeEdges, List.mem_filter, decide_eq_true_eq, Net.mem_edges hG, not_and, not_lt, gt_iff_lt]
      constructor
      · rintro ⟨h1, h2⟩; exact ⟨h1, h2 h1⟩
      · rintro ⟨h1, h2⟩; exact ⟨h1, fun _ => h2⟩

/-- An arc between two customers. -/
def Spec.Inner (e : Node × Node) : Prop := e.1 ≠ .source ∧ e.2 ≠ .sink

instance (e : Node × Node) : Decidable (Inner e) := by unfold Inner; infer_instance

/-- **C15**, BestEdges2: all arcs at the depot and `⌊ratio * n⌋` of the `n` other arcs are kept, and no arc kept has a
larger reduced cost than one discarded; so Source and Sink stay connected. -/
theorem C15_best_edges_2 {G : Net} {w : Node → Node → ℚ} {ratio : ℚ} (hG : WellFormed G) (h0 : 0 ≤ ratio)
    (h1 : ratio ≤ 1) :
    (removeEdges2 G w ratio).G.nodes = G.nodes ∧
    (∀ u v, v ∈ G.succ u → ¬ Inner (u, v) → v ∈ (removeEdges2 G w ratio).G.succ u) ∧
    ((((removeEdges2 G w ratio).G.edges.filter (fun e => Inner e)).length : Nat) : ℤ) =
      ⌊ratio * (G.edges.filter (fun e => Inner e)).length⌋ ∧
    (∀ e ∈ (removeEdges2 G w ratio).G.edges, Inner e → ∀ e' ∈ G.edges, e' ∉ (removeEdges2 G w ratio).G.edges →
      w e.1 e.2 ≤ w e'.1 e'.2) ∧
    (Node.sink ∈ G.succ .source ∨ (∃ v, v ∈ G.succ .source ∧ Node.sink ∈ G.succ v) →
      (removeEdges2 G w ratio).run = true) := by
  set inner := G.edges.filter (fun e => e.1 ≠ .source ∧ e.2 ≠ .sink) with hinner
  have hinner' : G.edges.filter (fun e => Inner e) = inner := by
    simp only [hinner, Inner]
  set sorted := sortedInnerEdges G w with hsorted
  have hperm : sorted.Perm inner := List.perm_insertionSort _ _
  set lim := ⌊ratio * sorted.length⌋.toNat with hlim
  have hsub : (removeEdges2 G w ratio).G = G.removeEdges (sorted.drop lim) := rfl
  have hndE := net_edges_nodup hG
  have hndS : sorted.Nodup := hperm.nodup_iff.2 (hndE.filter _)
  have hmemS : ∀ e, e ∈ sorted ↔ e ∈ G.edges ∧ Inner e := by
    intro e
    rw [hperm.mem_iff, hinner, List.mem_filter]
    simp [Inner]
  have hkeep : ∀ u v, v ∈ (removeEdges2 G w ratio).G.succ u ↔ v ∈ G.succ u ∧ (u, v) ∉ sorted.drop lim := by
    intro u v
    simp [hsub, Net.removeEdges]
  have hwf : WellFormed (removeEdges2 G w ratio).G := removeEdges_wf hG _
  have hdepot : ∀ u v, v ∈ G.succ u → ¬ Inner (u, v) → v ∈ (removeEdges2 G w ratio).G.succ u := by
    intro u v hv hi
    rw [hkeep]
    exact ⟨hv, fun hd => hi ((hmemS _).1 (List.mem_of_mem_drop hd)).2⟩
  refine ⟨rfl, hdepot, ?_, ?_, ?_⟩
  · have hfl0 : 0 ≤ ⌊ratio * sorted.length⌋ := Int.floor_nonneg.2 (by positivity)
    have hle : lim ≤ sorted.length := by
      have : ⌊ratio * sorted.length⌋ ≤ (sorted.length : ℤ) := by
        rw [Int.floor_le_iff]
        have hn : (0 : ℚ) ≤ sorted.length := by positivity
        have : ratio * sorted.length ≤ 1 * sorted.length := mul_le_mul_of_nonneg_right h1 hn
        push_cast
        linarith
      omega
    have hp : ((removeEdges2 G w ratio).G.edges.filter (fun e => Inner e)).Perm (sorted.take lim) := by
      rw [List.perm_ext_iff_of_nodup ((net_edges_nodup hwf).filter _) (hndS.sublist (List.take_sublist _ _))]
      intro e
      obtain ⟨u, v⟩ := e
      rw [List.mem_filter, Net.mem_edges hwf, hkeep, decide_eq_true_eq]
      have hsplit : (u, v) ∈ sorted ↔ (u, v) ∈ sorted.take lim ∨ (u, v) ∈ sorted.drop lim := by
        conv_lhs => rw [← List.take_append_drop lim sorted]
        exact List.mem_append
      have hdisj : (u, v) ∈ sorted.take lim → (u, v) ∉ sorted.drop lim := by
        have := hndS
        rw [← List.take_append_drop lim sorted] at this
        exact fun a b => (List.nodup_append.1 this).2.2 _ a _ b rfl
      constructor
      · rintro ⟨⟨hv, hnd⟩, hi⟩
        exact (hsplit.1 ((hmemS _).2 ⟨(Net.mem_edges hG u v).2 hv, hi⟩)).resolve_right hnd
      · intro ht
        obtain ⟨he, hi⟩ := (hmemS _).1 (hsplit.2 (Or.inl ht))
        exact ⟨⟨(Net.mem_edges hG u v).1 he, hdisj ht⟩, hi⟩
    rw [hp.length_eq, List.length_take, min_eq_left hle, hinner', ← hperm.length_eq, hlim, Int.toNat_of_nonneg hfl0]
  · intro e he hi e' he' hne'
    obtain ⟨u, v⟩ := e
    obtain ⟨u', v'⟩ := e'
    rw [Net.mem_edges hwf, hkeep] at he
    rw [Net.mem_edges hwf, hkeep, not_and, not_not] at hne'
    have hd := hne' ((Net.mem_edges hG u' v').1 he')
    have ht : (u, v) ∈ sorted.take lim := by
      have hs : (u, v) ∈ sorted := (hmemS _).2 ⟨(Net.mem_edges hG u v).2 he.1, hi⟩
      rw [← List.take_append_drop lim sorted] at hs
      exact (List.mem_append.1 hs).resolve_right he.2
    have hsort : sorted.Pairwise (fun a b => w a.1 a.2 ≤ w b.1 b.2) := by
      apply List.pairwise_insertionSort
    rw [← List.take_append_drop lim sorted] at hsort
    exact (List.pairwise_append.1 hsort).2.2 _ ht _ hd
  · intro hconn
    have : Connected (removeEdges2 G w ratio).G := by
      rcases hconn with hs | ⟨v, hv1, hv2⟩
      · refine ⟨[.source, .sink], rfl, rfl, ?_, trivial⟩
        exact (Net.mem_edges hwf _ _).2 (hdepot _ _ hs (by simp [Inner]))
      · refine ⟨[.source, v, .sink], rfl, rfl, ?_, ?_, trivial⟩
        · exact (Net.mem_edges hwf _ _).2 (hdepot _ _ hv1 (by simp [Inner]))
        · exact (Net.mem_edges hwf _ _).2 (hdepot _ _ hv2 (by simp [Inner]))
    exact (net_hasPath_iff hwf).2 this

/-- Contract of `islice(shortest_simple_paths(G, "Source", "Sink", weight=w), beta)`: different simple Source-Sink
paths in order of weight, `beta` of them or all there are, and none left out is shorter. -/
structure Spec.BestSimplePaths (G : Net) (w : Node → Node → ℚ) (beta : Nat) (ps : List (List Node)) : Prop where
  simple : ∀ p ∈ ps, IsPathIn G.edges p ∧ p.Nodup
  nodup : ps.Nodup
  sorted : ps.Pairwise (fun p q => legSum w p ≤ legSum w q)
  count : ps.length ≤ beta
  best : ∀ q, IsPathIn G.edges q → q.Nodup → q ∉ ps → ps.length = beta ∧ ∀ p ∈ ps, legSum w p ≤ legSum w q

/-- The arc weights normalised to `[-1, 1]` with negative values set to 0. -/
def Spec.Normalised (G : Net) (w pw : Node → Node → ℚ) : Prop :=
  ∃ hi lo, (∃ e ∈ G.edges, w e.1 e.2 = hi) ∧ (∃ e ∈ G.edges, w e.1 e.2 = lo) ∧
    (∀ e ∈ G.edges, lo ≤ w e.1 e.2 ∧ w e.1 e.2 ≤ hi) ∧ lo < hi ∧
    ∀ u v, pw u v = max 0 ((w u v - lo) / (hi - lo) * 2 - 1)

private theorem positiveWeights_spec {G : Net} {w pw : Node → Node → ℚ} (h : positiveWeights G w = .ok pw) :
    Normalised G w pw := by
  unfold positiveWeights at h
  cases hl : G.edges.map (fun e => w e.1 e.2) with
  | nil => simp [hl] at h
  | cons x xs =>
    simp only [hl] at h
    have hmem : ∀ y, y ∈ x :: xs → ∃ e ∈ G.edges, w e.1 e.2 = y := by
      intro y hy
      rw [← hl] at hy
      simpa using hy
    have hall : ∀ e ∈ G.edges, w e.1 e.2 ∈ x :: xs := by
      intro e he
      rw [← hl]
      exact List.mem_map_of_mem he
    split at h
    · cases h
    · rename_i hne
      simp only [Except.ok.injEq] at h
      have hle : ∀ y ∈ x :: xs, xs.foldl min x ≤ y ∧ y ≤ xs.foldl max x := by
        intro y hy
        refine ⟨foldl_min_le xs x y hy, ?_⟩
        rcases List.mem_cons.1 hy with rfl | hy
        · exact (le_foldl_max _ _).1
        · exact (le_foldl_max _ _).2 y hy
      have hlt : xs.foldl min x < xs.foldl max x :=
        lt_of_le_of_ne (hle _ (foldl_max_mem x xs)).1 (fun hh => hne hh.symm)
      refine ⟨_, _, hmem _ (foldl_max_mem x xs), hmem _ (foldl_min_mem xs x), fun e he => hle _ (hall e he), hlt, ?_⟩
      intro u v
      rw [← h]
      congr 1
      have : xs.foldl max x - xs.foldl min x ≠ 0 := by linarith
      field_simp
      ring

/-- **C15**, BestPaths: exactly the arcs of the `beta` best simple paths are kept, best for the normalised reduced
costs. -/
theorem C15_best_paths {G : Net} {w : Node → Node → ℚ} {paths : PathsOracle} {beta : Nat} {S : SubGraph}
    (hG : WellFormed G)
    (hpaths : ∀ pw, Normalised G w pw → BestSimplePaths G pw beta (paths G pw beta)) (h : removeEdges3 G w paths beta = .ok S) :
    ∃ pw ps, Normalised G w pw ∧ BestSimplePaths G pw beta ps ∧ ps ≠ [] ∧ S.run = true ∧
      (∀ u v, v ∈ S.G.succ u ↔ ∃ p ∈ ps, (u, v) ∈ consecutive p) ∧
      (∀ v, v ∈ S.G.nodes ↔ ∃ p ∈ ps, v ∈ p) := by
  unfold removeEdges3 at h
  cases hm : positiveWeights G w with
  | error e => simp [hm] at h
  | ok pw =>
    simp only [hm] at h
    by_cases hb : paths G pw beta = []
    · simp [hb] at h
    · rw [if_neg hb] at h
      simp only [Except.ok.injEq] at h
      subst h
      have hps := hpaths pw (positiveWeights_spec hm)
      have hin : ∀ p ∈ paths G pw beta, ∀ u v, (u, v) ∈ consecutive p → v ∈ G.succ u := by
        intro p hp u v huv
        exact (Net.mem_edges hG u v).1 ((along_iff _ _).1 (hps.simple p hp).1.2.2 u v huv)
      refine ⟨pw, _, positiveWeights_spec hm, hps, hb, rfl, ?_, ?_⟩
      · intro u v
        simp only [Net.edgeSubgraph, List.mem_filter, List.mem_flatMap, decide_eq_true_eq]
        constructor
        · rintro ⟨_, h⟩; exact h
        · rintro ⟨p, hp, huv⟩
          exact ⟨hin p hp u v huv, p, hp, huv⟩
      · intro v
        simp only [Net.edgeSubgraph, List.mem_filter, List.any_eq_true, List.mem_flatMap, decide_eq_true_eq]
        constructor
        · rintro ⟨_, e, ⟨p, hp, he⟩, hev⟩
          refine ⟨p, hp, ?_⟩
          rcases hev with rfl | rfl
          · exact fst_mem_of_consecutive he
          · exact snd_mem_of_consecutive he
        · rintro ⟨p, hp, hv⟩
          obtain ⟨⟨h1, h2, h3⟩, _⟩ := hps.simple p hp
          have hlen : 2 ≤ p.length := by
            match p, h1, h2 with
            | [a], h1, h2 => simp at h1 h2; rw [h1] at h2; cases h2
            | _ :: _ :: _, _, _ => simp
          obtain ⟨e, he, hev⟩ := (mem_graphNodes (consecutive p) v).1 ((mem_graphNodes_consecutive hlen v).2 hv)
          refine ⟨?_, e, ⟨p, hp, he⟩, ?_⟩
          · have := hG.edge_mem _ _ (hin p hp e.1 e.2 he)
            rcases hev with rfl | rfl
            · exact this.1
            · exact this.2
          · rcases hev with rfl | rfl
            · exact Or.inl rfl
            · exact Or.inr rfl

/-- **C15, which graph is searched.** Exact pricing always searches the whole network; a heuristic searches what its strategy leaves,
and does so exactly when that connects Source and Sink. -/
theorem C15_searched {G : Net} {d : Duals} {k : Nat} {route : Option ColName} {paths : PathsOracle} {s : Strategy}
    {w : Node → Node → ℚ} {S : SubGraph} (hG : WellFormed G)
    (hpaths : ∀ pw beta, Normalised G w pw → BestSimplePaths G pw beta (paths G pw beta))
    (h : subProblem G d k route paths s = .ok (w, S)) :
    (s = .exact → S.G = G ∧ S.run = true) ∧ (s ≠ .exact → (S.run = true ↔ Connected S.G)) ∧
      (∀ alpha, s = .bestEdges1 alpha → removeEdges1 G d k alpha = .ok S) ∧
      (∀ ratio, s = .bestEdges2 ratio → removeEdges2 G w ratio = S) ∧
      (∀ beta, s = .bestPaths beta → removeEdges3 G w paths beta = .ok S) := by
  unfold subProblem at h
  cases hw : reducedCosts G d k route with
  | error e => simp [hw] at h
  | ok w' =>
    simp only [hw] at h
    cases s with
    | exact =>
      simp only [Except.ok.injEq, Prod.mk.injEq] at h
      obtain ⟨_, rfl⟩ := h
      exact ⟨fun _ => ⟨rfl, rfl⟩, fun h => absurd rfl h, fun _ h => (by cases h), fun _ h => (by cases h), fun _ h => (by cases h)⟩
    | bestEdges1 alpha =>
      cases h1 : removeEdges1 G d k alpha with
      | error e => simp [h1] at h
      | ok S' =>
        simp only [h1, Except.ok.injEq, Prod.mk.injEq] at h
        obtain ⟨_, rfl⟩ := h
        obtain ⟨_, _, _, _, _, hc⟩ := C15_best_edges_1 hG h1
        exact ⟨fun h => (by cases h), fun _ => hc, fun _ h => (by cases h; exact h1), fun _ h => (by cases h), fun _ h => (by cases h)⟩
    | bestEdges2 ratio =>
      simp only [Except.ok.injEq, Prod.mk.injEq] at h
      obtain ⟨rfl, rfl⟩ := h
      exact ⟨fun h => (by cases h), fun _ => net_hasPath_iff (removeEdges_wf hG _), fun _ h => (by cases h),
        fun _ h => (by cases h; rfl), fun _ h => (by cases h)⟩
    | bestPaths beta =>
      cases h1 : removeEdges3 G w' paths beta with
      | error e => simp [h1] at h
      | ok S' =>
        simp only [h1, Except.ok.injEq, Prod.mk.injEq] at h
        obtain ⟨rfl, rfl⟩ := h
        obtain ⟨pw, ps, _, hb, hne, hr, harcs, hnodes⟩ := C15_best_paths hG (fun pw hpw => hpaths pw beta hpw) h1
        refine ⟨fun h => (by cases h), fun _ => ⟨fun _ => ?_, fun _ => hr⟩, fun _ h => (by cases h), fun _ h => (by cases h),
          fun _ h => (by cases h; exact h1)⟩
        obtain ⟨p, hp⟩ := List.exists_mem_of_ne_nil ps hne
        obtain ⟨⟨a1, a2, a3⟩, _⟩ := hb.simple p hp
        refine ⟨p, a1, a2, (along_iff _ _).2 (fun u v huv => ?_)⟩
        unfold Net.edges
        simp only [List.mem_flatMap, List.mem_map, Prod.mk.injEq]
        exact ⟨u, (hnodes u).2 ⟨p, hp, fst_mem_of_consecutive huv⟩, v, (harcs u v).2 ⟨p, hp, huv⟩, rfl, rfl⟩

/-- The contract assumed in `C15_best_paths` can always be met: sort all simple paths by weight and take the first
`beta`. -/
theorem C15_best_paths_exist {G : Net} (hG : WellFormed G) (w : Node → Node → ℚ) (beta : Nat) :
    ∃ ps, BestSimplePaths G w beta ps := by
  classical
  set all := ((G.nodes.sublists.flatMap List.permutations).filter
    (fun p => decide (IsPathIn G.edges p ∧ p.Nodup))).dedup.insertionSort (fun p q => legSum w p ≤ legSum w q) with hall
  have hmem : ∀ q, q ∈ all → IsPathIn G.edges q ∧ q.Nodup := by
    intro q hq
    rw [hall, List.mem_insertionSort, List.mem_dedup, List.mem_filter] at hq
    simpa using hq.2
  have hcomplete : ∀ q, IsPathIn G.edges q → q.Nodup → q ∈ all := by
    intro q hq hnd
    rw [hall, List.mem_insertionSort, List.mem_dedup, List.mem_filter]
    refine ⟨?_, by simp [hq, hnd]⟩
    have hsub : ∀ v ∈ q, v ∈ G.nodes := by
      intro v hv
      obtain ⟨h1, h2, h3⟩ := hq
      cases q with
      | nil => cases hv
      | cons a t =>
        rcases List.mem_cons.1 hv with rfl | hv
        · simp at h1; subst h1; exact hG.source_mem
        · obtain ⟨u, hu⟩ := pred_of_mem t a hv
          exact (hG.edge_mem u v ((Net.mem_edges hG u v).1 ((along_iff _ _).1 h3 u v hu))).2
    obtain ⟨l, hl1, hl2⟩ := hnd.subperm hsub
    rw [List.mem_flatMap]
    exact ⟨l, List.mem_sublists.2 hl2, List.mem_permutations.2 hl1.symm⟩
  have hnd : all.Nodup := by
    rw [hall]
    exact (List.perm_insertionSort _ _).nodup_iff.2 (List.nodup_dedup _)
  have hsorted : all.Pairwise (fun p q => legSum w p ≤ legSum w q) := by
    rw [hall]; apply List.pairwise_insertionSort
  refine ⟨all.take beta, ?_, ?_, ?_, by simp, ?_⟩
  · intro p hp; exact hmem p (List.mem_of_mem_take hp)
  · exact hnd.sublist (List.take_sublist _ _)
  · exact hsorted.sublist (List.take_sublist _ _)
  · intro q hq hqn hnot
    have hin := hcomplete q hq hqn
    rw [← List.take_append_drop beta all] at hin hsorted
    have hd : q ∈ all.drop beta := (List.mem_append.1 hin).resolve_left hnot
    refine ⟨?_, fun p hp => (List.pairwise_append.1 hsorted).2.2 p hp q hd⟩
    have : all.drop beta ≠ [] := List.ne_nil_of_mem hd
    rw [List.length_take]
    have : beta < all.length := by
      by_contra hc
      exact this (List.drop_eq_nil_of_le (by omega))
    omega

/-- **C15**: the BestPaths strategy raises `ZeroDivisionError` exactly when all arcs have the same reduced cost. -/
theorem C15_best_paths_division {G : Net} {w : Node → Node → ℚ} {paths : PathsOracle} {beta : Nat} (hne : G.edges ≠ []) :
    removeEdges3 G w paths beta = .error .zeroDivisionError ↔
      ∀ e ∈ G.edges, ∀ e' ∈ G.edges, w e.1 e.2 = w e'.1 e'.2 := by
  have hpos : positiveWeights G w = .error .zeroDivisionError ↔
      ∀ e ∈ G.edges, ∀ e' ∈ G.edges, w e.1 e.2 = w e'.1 e'.2 := by
    unfold positiveWeights
    cases hl : G.edges.map (fun e => w e.1 e.2) with
    | nil => simp at hl; exact absurd hl hne
    | cons x xs =>
      simp only
      have hle : ∀ y ∈ x :: xs, xs.foldl min x ≤ y ∧ y ≤ xs.foldl max x := by
        intro y hy
        refine ⟨foldl_min_le xs x y hy, ?_⟩
        rcases List.mem_cons.1 hy with rfl | hy
        · exact (le_foldl_max _ _).1
        · exact (le_foldl_max _ _).2 y hy
      have hmem : ∀ y, y ∈ x :: xs ↔ ∃ e ∈ G.edges, w e.1 e.2 = y := by
        intro y
        rw [← hl]
        simp
      split
      · rename_i heq
        simp only [true_iff]
        intro e he e' he'
        have h1 := hle _ ((hmem _).2 ⟨e, he, rfl⟩)
        have h2 := hle _ ((hmem _).2 ⟨e', he', rfl⟩)
        rw [heq] at h1 h2
        linarith [h1.1, h1.2, h2.1, h2.2]
      · rename_i hneq
        simp only [reduceCtorEq, false_iff]
        intro hall
        obtain ⟨e, he, h1⟩ := (hmem _).1 (foldl_max_mem x xs)
        obtain ⟨e', he', h2⟩ := (hmem _).1 (foldl_min_mem xs x)
        exact hneq (by rw [← h1, ← h2]; exact hall e he e' he')
  rw [← hpos]
  unfold removeEdges3
  cases hm : positiveWeights G w with
  | error e => simp
  | ok pw =>
    simp only
    split
    · by_cases hb : beta = 0 <;> simp [hb]
    · simp

/-- Two customers, arcs of cost 1 and 3, duals 5 and 2, one vehicle with dual -1. -/
private def exC14 : Net where
  nodes := [.source, .cust 1, .cust 2, .sink]
  succ := fun u => match u with
    | .source => [.cust 1, .cust 2, .sink]
    | .cust 1 => [.cust 2, .sink]
    | .cust 2 => [.cust 1, .sink]
    | _ => []
  cost := fun _ v => [if v = .sink then 3 else 1]

private def exC14Duals : Duals := { visit := [(.cust 1, 5), (.cust 2, 2)], fleet := some [-1] }

private theorem exC14_wf : WellFormed exC14 := by
  refine ⟨by decide, ?_, ?_, by decide, by decide, ?_, by decide⟩
  · intro u; simp only [exC14]; split <;> decide
  · intro u v; simp only [exC14]; split <;> simp <;> tauto
  · intro u; simp only [exC14]; split <;> decide

/-- The hypotheses of C14 and C15 hold for an example; the route over both customers has reduced cost
1+1+3 - 5 - 2 + 1 = -1. -/
example : WellFormed exC14 ∧ CostsFor exC14 1 ∧ (exC14Duals.visit.map Prod.fst).Nodup ∧
    (match reducedCosts exC14 exC14Duals 0 none with
      | .ok w => decide (legSum w [.source, .cust 1, .cust 2, .sink] = -1)
      | .error _ => false) = true ∧
    (match removeEdges1 exC14 exC14Duals 0 (1/2) with
      | .ok S => decide (S.G.edges = [(.source, .cust 1), (.source, .cust 2), (.cust 1, .cust 2), (.cust 2, .cust 1)] ∧
          S.run = false)
      | .error _ => false) = true := by
  refine ⟨exC14_wf, ?_, by decide, by decide +kernel, by decide +kernel⟩
  intro u v _; simp [exC14]

example : (removeEdges2 exC14 (fun u v => if u = .cust 1 ∧ v = .cust 2 then 0 else 1) (1/2)).G.edges =
    [(.source, .cust 1), (.source, .cust 2), (.source, .sink), (.cust 1, .cust 2), (.cust 1, .sink), (.cust 2, .sink)] := by
  decide +kernel

end Vrpy
