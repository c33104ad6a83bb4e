import Verif.Model.Pricing
import Verif.Proofs.Columns
import Verif.Proofs.Reports
import Verif.Proofs.Checks
import Verif.Proofs.RouteSets
import Mathlib.Tactic.Ring
import Mathlib.Tactic.Linarith

/-! Lemmas about reduced costs and the pricing strategies. -/

namespace Vrpy

open Spec

/-- The dual of a node (0 if it has none). -/
def Duals.dual (d : Duals) (v : Node) : ℚ := (dget d.visit v).getD 0

/-- The dual of the fleet bound of type `k` (0 if there is none). -/
def Duals.fleetDual (d : Duals) (k : Nat) : ℚ := (d.fleet.getD []).getD k 0

theorem subtractDuals_eq (d : Duals) (hnd : (d.visit.map Prod.fst).Nodup) (u : Node) (w : ℚ) :
    subtractDuals d u w = w - d.dual u := by
  obtain ⟨l, _, _⟩ := d
  simp only [subtractDuals, Duals.dual] at *
  induction l generalizing w with
  | nil => simp [dget]
  | cons p l ih =>
    simp only [List.map_cons, List.nodup_cons] at hnd
    simp only [List.foldl_cons, dget]
    by_cases hu : u = p.1
    · have hno : dget l u = none := (dget_eq_none l u).2 (hu ▸ hnd.1)
      rw [if_pos hu, if_pos hu, ih _ hnd.2, hno]
      simp
    · rw [if_neg hu, if_neg hu, ih _ hnd.2]

theorem edgeWeight_inv {G : Net} {d : Duals} {k : Nat} {route : Option ColName} {u v : Node} {w : ℚ}
    (hnd : (d.visit.map Prod.fst).Nodup) (h : edgeWeight G d k route u v = .ok w) :
    v ∈ G.succ u ∧ k < (G.cost u v).length ∧ ∃ a, (∀ c, spanWeight d route c = .ok (a * c)) ∧
      (u = .source → ∀ ps, d.fleet = some ps → k < ps.length) ∧
      w = a * (G.cost u v).getD k 0 - d.dual u - if u = .source then d.fleetDual k else 0 := by
  unfold edgeWeight at h
  cases hc : G.edgeCost u v k with
  | error e => simp [hc] at h
  | ok c =>
    obtain ⟨h1, h2, rfl⟩ := edgeCost_inv hc
    simp only [hc] at h
    cases hs : spanWeight d route ((G.cost u v).getD k 0) with
    | error e => simp only [hs] at h; cases h
    | ok x =>
      simp only [hs, subtractDuals_eq d hnd] at h
      have hspan : ∃ a, ∀ c, spanWeight d route c = .ok (a * c) := by
        unfold spanWeight at hs ⊢
        cases route with
        | none => exact ⟨1, fun c => by simp⟩
        | some n =>
          cases hn : dget d.span n with
          | none => simp [hn] at hs
          | some p => exact ⟨-p, fun c => by simp [hn, mul_comm]⟩
      obtain ⟨a, ha⟩ := hspan
      have hx : a * (G.cost u v).getD k 0 = x := by
        rw [ha] at hs
        exact Except.ok.inj hs
      refine ⟨h1, h2, a, ha, ?_⟩
      rw [hx]
      unfold fleetWeight at h
      cases hf : d.fleet with
      | none =>
        simp only [hf, Except.ok.injEq] at h
        simp [Duals.fleetDual, hf, h]
      | some ps =>
        simp only [hf] at h
        by_cases hu : u = .source
        · rw [if_pos hu] at h
          cases hp : ps[k]? with
          | none => simp [hp] at h
          | some p =>
            simp only [hp, Except.ok.injEq] at h
            refine ⟨fun _ ps' h' => ?_, ?_⟩
            · cases h'; exact (List.getElem?_eq_some_iff.1 hp).1
            · rw [if_pos hu, ← h]; simp [Duals.fleetDual, hf, hp]
        · rw [if_neg hu] at h
          simp only [Except.ok.injEq] at h
          refine ⟨fun hh => absurd hh hu, ?_⟩
          rw [if_neg hu, ← h]; simp

theorem reducedCosts_inv {G : Net} {d : Duals} {k : Nat} {route : Option ColName} {w : Node → Node → ℚ}
    (h : reducedCosts G d k route = .ok w) (u v : Node) (he : (u, v) ∈ G.edges) :
    edgeWeight G d k route u v = .ok (w u v) := by
  unfold reducedCosts at h
  cases hm : G.edges.mapM (fun e => edgeWeight G d k route e.1 e.2) with
  | error e => simp [hm] at h
  | ok ws =>
    simp only [hm, Except.ok.injEq] at h
    have hall := py_mapM_ok.1 hm
    obtain ⟨y, _, hy⟩ : ∃ y, True ∧ edgeWeight G d k route u v = .ok y := by
      clear hm h
      generalize G.edges = es at he hall
      induction hall with
      | nil => simp at he
      | @cons x y l ys hx _ ih =>
        rcases List.mem_cons.1 he with rfl | he'
        · exact ⟨y, trivial, hx⟩
        · exact ih he'
    rw [← h]
    simp only [hy]

theorem legSum_sub (f : Node → Node → ℚ) (g : Node → ℚ) (l : List Node) :
    legSum (fun u v => f u v - g u) l = legSum f l - (l.dropLast.map g).sum := by
  match l with
  | [] => simp [legSum]
  | [a] => simp [legSum]
  | a :: b :: rest =>
    have ih := legSum_sub f g (b :: rest)
    simp only [legSum, ih, List.dropLast_cons₂, List.map_cons, List.sum_cons]
    ring

theorem legSum_congr {f g : Node → Node → ℚ} {l : List Node} (h : ∀ u v, (u, v) ∈ consecutive l → f u v = g u v) :
    legSum f l = legSum g l := by
  rw [legSum_eq, legSum_eq]
  congr 1
  apply List.map_congr_left
  intro e he
  exact h e.1 e.2 he

theorem legSum_mul (a : ℚ) (f : Node → Node → ℚ) (l : List Node) :
    legSum (fun u v => a * f u v) l = a * legSum f l := by
  match l with
  | [] => simp [legSum]
  | [x] => simp [legSum]
  | x :: y :: rest =>
    have ih := legSum_mul a f (y :: rest)
    simp only [legSum, ih]
    ring

theorem foldl_min_le (xs : List ℚ) (x : ℚ) : ∀ y ∈ x :: xs, xs.foldl min x ≤ y := by
  induction xs generalizing x with
  | nil => simp
  | cons z zs ih =>
    intro y hy
    rw [List.foldl_cons]
    rcases List.mem_cons.1 hy with rfl | hy
    · exact le_trans (ih _ _ (by simp)) (min_le_left y z)
    · rcases List.mem_cons.1 hy with rfl | hy
      · exact le_trans (ih _ _ (by simp)) (min_le_right x y)
      · exact ih _ _ (by simp [hy])

theorem foldl_min_mem (xs : List ℚ) (x : ℚ) : xs.foldl min x ∈ x :: xs := by
  induction xs generalizing x with
  | nil => simp
  | cons y ys ih =>
    rw [List.foldl_cons]
    rcases min_choice x y with h | h
    · rw [h]; have := ih x; simp only [List.mem_cons] at this ⊢; tauto
    · rw [h]; have := ih y; simp only [List.mem_cons] at this ⊢; tauto

theorem removeEdges_wf {G : Net} (h : WellFormed G) (es : List (Node × Node)) : WellFormed (G.removeEdges es) where
  nodes_nodup := h.nodes_nodup
  succ_nodup := fun u => (h.succ_nodup u).filter _
  edge_mem := fun u v hv => h.edge_mem u v (List.mem_filter.1 hv).1
  source_mem := h.source_mem
  sink_mem := h.sink_mem
  no_into_source := fun u hu => h.no_into_source u (List.mem_filter.1 hu).1
  no_out_of_sink := by simp [Net.removeEdges, h.no_out_of_sink]

theorem toDiGraph_wf {G : Net} (h : WellFormed G) : G.toDiGraph.WF where
  nodes_nodup := h.nodes_nodup
  succ_nodup := h.succ_nodup
  succ_mem := h.edge_mem

theorem net_edges_nodup {G : Net} (h : WellFormed G) : G.edges.Nodup := by
  unfold Net.edges
  rw [List.nodup_flatMap]
  refine ⟨fun u _ => (h.succ_nodup u).map (fun a b hab => (Prod.mk.inj hab).2), ?_⟩
  refine h.nodes_nodup.imp ?_
  intro a b hab x hx hy
  simp only [List.mem_map] at hx hy
  obtain ⟨_, _, rfl⟩ := hx
  obtain ⟨_, _, he⟩ := hy
  exact hab (Prod.mk.inj he).1.symm

end Vrpy
