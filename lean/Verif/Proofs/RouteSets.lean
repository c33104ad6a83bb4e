import Verif.Proofs.ClarkeWright

/-! Generic facts about routes `Source, mid, Sink` and sets of them. -/

namespace Vrpy

open Spec

theorem stops_routeOf {G : Net} {L : List Node} (h : ∀ v ∈ L, v ∈ G.customers) : stops (routeOf L) = L := by
  have : L.filter (fun v => decide (v ≠ .source ∧ v ≠ .sink)) = L := by
    rw [List.filter_eq_self]
    intro v hv
    simpa using (mem_customers.1 (h v hv)).2
  simp only [stops, routeOf]
  rw [List.filter_cons_of_neg (by simp), List.filter_append, this, List.filter_cons_of_neg (by simp)]
  simp

theorem isSimpleRoute_routeOf {G : Net} {L : List Node} (h : ∀ v ∈ L, v ∈ G.customers) (hnd : L.Nodup)
    (ha : Along (fun u v => v ∈ G.succ u) (routeOf L)) : IsSimpleRoute G (routeOf L) := by
  refine ⟨⟨L, rfl, ?_, ha⟩, ?_⟩
  · intro v hv
    have := mem_customers.1 (h v hv)
    refine ⟨?_, this.1⟩
    cases v with
    | source => simp at this
    | sink => simp at this
    | cust n => exact ⟨n, rfl⟩
  · simp only [routeOf, List.nodup_cons, List.mem_append, List.mem_singleton, reduceCtorEq, or_false,
      List.nodup_append, hnd, List.nodup_nil, List.not_mem_nil, not_false_eq_true, true_and]
    refine ⟨fun hs => (mem_customers.1 (h _ hs)).2.1 rfl, ?_⟩
    rintro a ha b rfl rfl
    exact (mem_customers.1 (h _ ha)).2.2 rfl

theorem count_routeOfs (Ls : List (List Node)) (v : Node) (h1 : v ≠ .source) (h2 : v ≠ .sink) :
    (((Ls.map routeOf).flatten).filter (fun x => x = v)).length = (Ls.flatten.filter (fun x => x = v)).length := by
  induction Ls with
  | nil => rfl
  | cons L Ls ih =>
    simp only [List.map_cons, List.flatten_cons, List.filter_append, List.length_append, ih]
    congr 1
    simp only [routeOf, List.filter_cons, List.filter_append]
    simp [h1.symm, h2.symm]

theorem filter_length_one {l : List Node} (hnd : l.Nodup) {v : Node} (hv : v ∈ l) :
    (l.filter (fun x => x = v)).length = 1 := by
  have hc := List.count_eq_one_of_mem hnd hv
  rw [← hc, List.count_eq_length_filter]
  rfl

theorem active_eq_some {lim : Option ℚ} {c : ℚ} : active lim = some c ↔ lim = some c ∧ c ≠ 0 := by
  cases lim with
  | none => simp [active]
  | some x =>
    simp only [active, Option.filter_eq_some_iff, Option.some.injEq, decide_eq_true_eq, ne_eq]

end Vrpy
