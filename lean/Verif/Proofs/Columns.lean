import Verif.Model.Columns
import Verif.SpecColumns
import Verif.Proofs.Py
import Verif.Proofs.Routes
import Verif.Proofs.ClarkeWright
import Verif.Proofs.PreSolve
import Mathlib.Data.List.Forall2
import Mathlib.Data.List.Nodup

/-! Lemmas about columns and the conversion of initial routes. -/

namespace Vrpy

open Spec

theorem py_mapM_ok {α β : Type} {f : α → Py β} {l : List α} {ys : List β} :
    l.mapM f = .ok ys ↔ List.Forall₂ (fun x y => f x = .ok y) l ys := by
  induction l generalizing ys with
  | nil => simp [pure, Except.pure, eq_comm]
  | cons a l ih =>
    rw [List.mapM_cons]
    simp only [py_bind_ok]
    constructor
    · rintro ⟨y, hy, ys', hys', h⟩
      simp only [pure, Except.pure, Except.ok.injEq] at h
      subst h
      exact List.Forall₂.cons hy (ih.1 hys')
    · intro h
      cases h with
      | cons h1 h2 => exact ⟨_, h1, _, ih.2 h2, rfl⟩

/-- A `mapM` that cannot go wrong in any element. -/
theorem py_mapM_total {α β : Type} {f : α → Py β} {l : List α} (h : ∀ x ∈ l, ∃ y, f x = .ok y) :
    ∃ ys, l.mapM f = .ok ys := by
  induction l with
  | nil => exact ⟨[], rfl⟩
  | cons a l ih =>
    obtain ⟨y, hy⟩ := h a (by simp)
    obtain ⟨ys, hys⟩ := ih (fun x hx => h x (by simp [hx]))
    exact ⟨y :: ys, by rw [List.mapM_cons, py_bind_ok]; exact ⟨y, hy, by rw [py_bind_ok]; exact ⟨ys, hys, rfl⟩⟩⟩

/-- If every element succeeds or raises `e`, and one raises, the `mapM` raises `e`. -/
theorem py_mapM_error {α β : Type} {f : α → Py β} {l : List α} {e : PyErr}
    (h : ∀ x ∈ l, (∃ y, f x = .ok y) ∨ f x = .error e) (h1 : ∃ x ∈ l, f x = .error e) : l.mapM f = .error e := by
  induction l with
  | nil => simp at h1
  | cons a l ih =>
    rw [List.mapM_cons]
    rcases h a (by simp) with ⟨y, hy⟩ | he
    · rw [hy]
      have : l.mapM f = .error e := by
        apply ih (fun x hx => h x (by simp [hx]))
        obtain ⟨x, hx, hxe⟩ := h1
        rcases List.mem_cons.1 hx with rfl | hx
        · rw [hy] at hxe; cases hxe
        · exact ⟨x, hx, hxe⟩
      simp [bind, Except.bind, this]
    · simp [bind, Except.bind, he]

theorem edgeCost_inv {G : Net} {u v : Node} {k : Nat} {c : ℚ} (h : G.edgeCost u v k = .ok c) :
    v ∈ G.succ u ∧ k < (G.cost u v).length ∧ c = (G.cost u v).getD k 0 := by
  unfold Net.edgeCost at h
  split at h
  · rename_i hv
    split at h
    · rename_i c' hc
      cases h
      have hk : k < (G.cost u v).length := by
        by_contra hlt
        rw [List.getElem?_eq_none (by omega)] at hc
        cases hc
      refine ⟨by simpa [Net.hasEdge] using hv, hk, ?_⟩
      simp [List.getD_eq_getElem?_getD, hc]
    · cases h
  · cases h

theorem edgeCost_of {G : Net} {u v : Node} {k : Nat} (hv : v ∈ G.succ u) (hk : k < (G.cost u v).length) :
    G.edgeCost u v k = .ok ((G.cost u v).getD k 0) := by
  simp [Net.edgeCost, Net.hasEdge, hv, List.getElem?_eq_getElem hk, List.getD_eq_getElem?_getD]

private theorem sumEdgeCosts_aux {G : Net} {k : Nat} (es : List (Node × Node)) (a c : ℚ) :
    es.foldlM (fun acc e => match G.edgeCost e.1 e.2 k with
      | .error err => (.error err : Py ℚ) | .ok c => .ok (acc + c)) a = .ok c ↔
    (∀ e ∈ es, e.2 ∈ G.succ e.1 ∧ k < (G.cost e.1 e.2).length) ∧
      c = a + (es.map (fun e => (G.cost e.1 e.2).getD k 0)).sum := by
  induction es generalizing a with
  | nil => simp [pure, Except.pure, eq_comm]
  | cons e es ih =>
    simp only [List.foldlM_cons, py_bind_ok]
    constructor
    · rintro ⟨b, hb, h⟩
      cases hc : G.edgeCost e.1 e.2 k with
      | error err => simp [hc] at hb
      | ok ce =>
        simp only [hc, Except.ok.injEq] at hb
        obtain ⟨h1, h2, h3⟩ := edgeCost_inv hc
        obtain ⟨i1, i2⟩ := (ih b).1 h
        refine ⟨?_, ?_⟩
        · intro e' he'
          rcases List.mem_cons.1 he' with rfl | he'
          · exact ⟨h1, h2⟩
          · exact i1 e' he'
        · rw [i2, ← hb, h3, List.map_cons, List.sum_cons]; ring
    · rintro ⟨h1, h2⟩
      have h0 := h1 e (by simp)
      refine ⟨a + (G.cost e.1 e.2).getD k 0, by rw [edgeCost_of h0.1 h0.2], ?_⟩
      rw [ih]
      refine ⟨fun e' he' => h1 e' (by simp [he']), ?_⟩
      rw [h2, List.map_cons, List.sum_cons]; ring

theorem sumEdgeCosts_ok {G : Net} {k : Nat} {es : List (Node × Node)} {c : ℚ} :
    sumEdgeCosts G k es = .ok c ↔ (∀ e ∈ es, e.2 ∈ G.succ e.1 ∧ k < (G.cost e.1 e.2).length) ∧
      c = (es.map (fun e => (G.cost e.1 e.2).getD k 0)).sum := by
  have h := sumEdgeCosts_aux (G := G) (k := k) es 0 c
  rw [zero_add] at h
  exact h

/-- The price of a node list is its cost in the sense of the specification. -/
theorem sumEdgeCosts_route {G : Net} {k : Nat} {r : List Node} {c : ℚ} :
    sumEdgeCosts G k (consecutive r) = .ok c ↔ Along (fun u v => v ∈ G.succ u ∧ k < (G.cost u v).length) r ∧
      c = cost G k r := by
  rw [sumEdgeCosts_ok, along_iff, cost, legSum_eq]
  constructor
  · rintro ⟨h1, h2⟩; exact ⟨fun a b hab => h1 (a, b) hab, h2⟩
  · rintro ⟨h1, h2⟩; exact ⟨fun e he => h1 e.1 e.2 he, h2⟩

theorem firstType_some {caps : List ℚ} {q : ℚ} {k : Nat} :
    firstType caps q = some k ↔ (caps = [] ∧ k = 0) ∨
      (k < caps.length ∧ q ≤ caps.getD k 0 ∧ ∀ j < k, ¬ q ≤ caps.getD j 0) := by
  unfold firstType
  by_cases hc : caps = []
  · simp [hc, eq_comm]
  · rw [if_neg hc, List.findIdx?_eq_some_iff_getElem]
    constructor
    · rintro ⟨h1, h2, h3⟩
      refine Or.inr ⟨h1, ?_, ?_⟩
      · simpa [List.getD_eq_getElem?_getD, h1] using h2
      · intro j hj
        have := h3 j hj
        have hj' : j < caps.length := by omega
        simpa [List.getD_eq_getElem?_getD, hj'] using this
    · rintro (⟨h, _⟩ | ⟨h1, h2, h3⟩)
      · exact absurd h hc
      · refine ⟨h1, ?_, ?_⟩
        · simpa [List.getD_eq_getElem?_getD, h1] using h2
        · intro j hj
          have := h3 j hj
          have hj' : j < caps.length := by omega
          simpa [List.getD_eq_getElem?_getD, hj'] using this

theorem firstType_none {caps : List ℚ} {q : ℚ} :
    firstType caps q = none ↔ caps ≠ [] ∧ ∀ c ∈ caps, c < q := by
  unfold firstType
  by_cases hc : caps = []
  · simp [hc]
  · rw [if_neg hc, List.findIdx?_eq_none_iff]
    simp [hc]

theorem convertRoute_ok {G : Net} {caps : List ℚ} {id : Nat} {r : List Node} {c : Column} :
    convertRoute G caps id r = .ok c ↔
      Along (fun u v => v ∈ G.succ u ∧ 0 < (G.cost u v).length) r ∧
      ∃ k, firstType caps (load G r) = some k ∧
        c = { name := .num id, nodes := graphNodes (consecutive r), edges := graphEdges (consecutive r),
              cost := cost G 0 r, vehicleType := k } := by
  unfold convertRoute load
  cases hs : sumEdgeCosts G 0 (consecutive r) with
  | error e =>
    simp only [reduceCtorEq, false_iff, not_and]
    intro hal
    have := (sumEdgeCosts_route (c := cost G 0 r)).2 ⟨hal, rfl⟩
    rw [hs] at this
    cases this
  | ok q =>
    obtain ⟨h1, h2⟩ := sumEdgeCosts_route.1 hs
    subst h2
    cases hf : firstType caps (r.map G.demand).sum with
    | none => simp
    | some k => simp [h1, eq_comm]

theorem mem_graphNodes (es : List (Node × Node)) (v : Node) :
    v ∈ graphNodes es ↔ ∃ e ∈ es, v = e.1 ∨ v = e.2 := by
  unfold graphNodes
  suffices H : ∀ l, v ∈ es.foldl (fun l e => insertNew (insertNew l e.1) e.2) l ↔ v ∈ l ∨ ∃ e ∈ es, v = e.1 ∨ v = e.2 by
    simpa using H []
  induction es with
  | nil => simp
  | cons e es ih =>
    intro l
    rw [List.foldl_cons, ih, mem_insertNew, mem_insertNew]
    simp only [List.mem_cons, exists_eq_or_imp, or_assoc]

theorem nodup_graphNodes (es : List (Node × Node)) : (graphNodes es).Nodup := by
  unfold graphNodes
  refine foldl_inv (P := List.Nodup) es [] List.nodup_nil ?_
  intro c a _ hc
  exact nodup_insertNew _ _ (nodup_insertNew _ _ hc)

theorem mem_graphEdges (es : List (Node × Node)) (e : Node × Node) : e ∈ graphEdges es ↔ e ∈ es := by
  unfold graphEdges
  simp only [List.mem_flatMap, mem_foldl_insertNew, List.not_mem_nil, false_or, List.mem_filter, decide_eq_true_eq]
  constructor
  · rintro ⟨u, _, h, _⟩; exact h
  · intro h
    exact ⟨e.1, (mem_graphNodes es e.1).2 ⟨e, h, Or.inl rfl⟩, h, rfl⟩

theorem nodup_graphEdges (es : List (Node × Node)) : (graphEdges es).Nodup := by
  unfold graphEdges
  rw [List.nodup_flatMap]
  refine ⟨fun u _ => nodup_foldl_insertNew _ _ List.nodup_nil, ?_⟩
  refine (nodup_graphNodes es).imp ?_
  intro u v huv
  simp only [Function.onFun, List.disjoint_left, mem_foldl_insertNew, List.not_mem_nil, false_or, List.mem_filter,
    decide_eq_true_eq]
  rintro e ⟨_, h1⟩ ⟨_, h2⟩
  exact huv (h1.symm.trans h2)

/-- Building a graph from distinct edges permutes them. -/
theorem graphEdges_perm {es : List (Node × Node)} (h : es.Nodup) : (graphEdges es).Perm es :=
  (List.perm_ext_iff_of_nodup (nodup_graphEdges es) h).2 (mem_graphEdges es)

theorem consecutive_nodup {r : List Node} (h : r.Nodup) : (consecutive r).Nodup := by
  unfold consecutive
  have h1 : ((r.dropLast.zip r.tail).map Prod.fst).Nodup := by
    rw [List.map_fst_zip (by simp)]
    exact h.sublist (List.dropLast_sublist r)
  exact h1.of_map _

/-- The nodes of the graph of a route with at least two nodes. -/
theorem mem_graphNodes_consecutive {r : List Node} (h : 2 ≤ r.length) (v : Node) :
    v ∈ graphNodes (consecutive r) ↔ v ∈ r := by
  rw [mem_graphNodes]
  constructor
  · rintro ⟨e, he, rfl | rfl⟩
    · exact fst_mem_of_consecutive he
    · exact snd_mem_of_consecutive he
  · intro hv
    match r, h with
    | a :: b :: l, _ =>
      induction l generalizing a b with
      | nil =>
        simp only [List.mem_cons, List.not_mem_nil, or_false] at hv
        exact ⟨(a, b), by simp, hv⟩
      | cons c l ih =>
        rcases List.mem_cons.1 hv with rfl | hv
        · exact ⟨(v, b), by simp, Or.inl rfl⟩
        · obtain ⟨e, he, hev⟩ := ih b c (by simp) hv
          exact ⟨e, by rw [consecutive_cons_cons]; exact List.mem_cons_of_mem _ he, hev⟩

theorem encodes_of_perm {G : Net} {c : Column} {r : List Node} {es : List (Node × Node)} (hnd : r.Nodup)
    (h2 : 2 ≤ r.length) (hperm : es.Perm (consecutive r)) (hn : c.nodes = graphNodes es) (he : c.edges = graphEdges es)
    (hc : sumEdgeCosts G c.vehicleType es = .ok c.cost) : Encodes G c r := by
  have hes : es.Nodup := hperm.nodup_iff.2 (consecutive_nodup hnd)
  refine ⟨?_, by rw [he]; exact (graphEdges_perm hes).trans hperm, ?_⟩
  · rw [hn]
    refine (List.perm_ext_iff_of_nodup (nodup_graphNodes _) hnd).2 (fun v => ?_)
    rw [← mem_graphNodes_consecutive h2, mem_graphNodes, mem_graphNodes]
    simp only [hperm.mem_iff]
  · obtain ⟨_, hc⟩ := sumEdgeCosts_ok.1 hc
    rw [hc, Spec.cost, legSum_eq]
    exact (hperm.map _).sum_eq

end Vrpy
