import Verif.Proofs.ExactCspy

/-!
# The best simple paths, computed

The contract of `shortest_simple_paths` is met by listing all simple paths and sorting them.
-/

namespace Vrpy

open Spec

/-- The `beta` best simple paths. -/
def Net.bestPaths : PathsOracle := fun G w beta =>
  (((G.walks G.nodes.length .source).filter (fun p => decide p.Nodup)).dedup.insertionSort
    (fun p q => legSum w p ≤ legSum w q)).take beta

theorem Net.bestPaths_ok : PathsOk Net.bestPaths := by
  intro G w beta hG
  unfold Net.bestPaths
  generalize hL : ((G.walks G.nodes.length .source).filter (fun p => decide p.Nodup)).dedup = L
  have hmemL : ∀ q, q ∈ L ↔ IsPathIn G.edges q ∧ q.Nodup := by
    intro q
    rw [← hL, List.mem_dedup, List.mem_filter, Net.mem_walks, decide_eq_true_eq]
    have hal : Along (fun u v => v ∈ G.succ u) q ↔ Along (fun u v => (u, v) ∈ G.edges) q := by
      rw [along_iff, along_iff]
      exact ⟨fun h u v huv => (Net.mem_edges hG u v).2 (h u v huv), fun h u v huv => (Net.mem_edges hG u v).1 (h u v huv)⟩
    constructor
    · rintro ⟨⟨h1, h2, h3, _⟩, h5⟩
      exact ⟨⟨h1, h2, hal.1 h3⟩, h5⟩
    · rintro ⟨⟨h1, h2, h3⟩, h5⟩
      refine ⟨⟨h1, h2, hal.2 h3, ?_⟩, h5⟩
      have hsub : ∀ v ∈ q, v ∈ G.nodes := by
        intro v hv
        cases q with
        | nil => cases hv
        | cons a t =>
          rcases List.mem_cons.1 hv with rfl | hv
          · simp only [List.head?_cons, Option.some.injEq] at h1
            subst h1
            exact hG.source_mem
          · obtain ⟨u, hu⟩ := pred_of_mem t a hv
            exact (hG.edge_mem u v ((along_iff _ _).1 (hal.2 h3) u v hu)).2
      have := (h5.subperm hsub).length_le
      omega
  generalize hall : L.insertionSort (fun p q => legSum w p ≤ legSum w q) = all
  have hmem : ∀ q, q ∈ all ↔ IsPathIn G.edges q ∧ q.Nodup := by
    intro q
    rw [← hall, List.mem_insertionSort, hmemL]
  have hnd : all.Nodup := by
    rw [← hall, ← hL]
    exact (List.perm_insertionSort _ _).nodup_iff.2 (List.nodup_dedup _)
  have hsorted : all.Pairwise (fun p q => legSum w p ≤ legSum w q) := by
    rw [← hall]; apply List.pairwise_insertionSort
  refine ⟨fun p hp => (hmem p).1 (List.mem_of_mem_take hp), hnd.sublist (List.take_sublist _ _),
    hsorted.sublist (List.take_sublist _ _), by simp, ?_⟩
  intro q hq hqn hnot
  have hin := (hmem q).2 ⟨hq, hqn⟩
  rw [← List.take_append_drop beta all] at hin hsorted
  have hd : q ∈ all.drop beta := (List.mem_append.1 hin).resolve_left hnot
  refine ⟨?_, fun p hp => (List.pairwise_append.1 hsorted).2.2 p hp q hd⟩
  have : all.drop beta ≠ [] := List.ne_nil_of_mem hd
  rw [List.length_take]
  have : beta < all.length := by
    by_contra hc
    exact this (List.drop_eq_nil_of_le (by omega))
  omega

end Vrpy
