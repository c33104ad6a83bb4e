import Verif.Props.EndToEndBound

/-!
# C05 and C06 together: arcs removed for loads and for time windows
-/

namespace Vrpy

open Spec

/-- **C06 (partial), with capacities.** When arcs are removed for the loads first and then for the time windows (as `solve()`
does if there are both), every route that fits into some vehicle and is on time is still a route and still on time
afterwards, and nothing is raised.  As for `C06_tw_pruning_sound_partial`, the triangle inequality at the depot is needed. -/
theorem C06_both_partial {N : Net} {caps : List ℚ} (hG : WellFormed N) (hconn : DepotConnected N)
    (hd : N.demand .source = 0 ∧ N.demand .sink = 0) (hdem : ∀ v ∈ N.nodes, 0 ≤ N.demand v)
    (hfit : ∀ v ∈ N.customers, SomeCarries caps (N.demand v)) (hT : DepotTriangle N) :
    ∃ N2, pruneGraph N caps true = .ok N2 ∧
      ∀ r, IsRoute N r → SomeCarries caps (load N r) → OnTime N r → IsRoute N2 r ∧ OnTime N2 r := by
  have hex : ∃ N2, pruneGraph N caps true = .ok N2 := by
    obtain ⟨N1, h1⟩ : ∃ N1, pruneGraph N caps false = .ok N1 := by
      cases caps with
      | nil => exact ⟨N, rfl⟩
      | cons c cs => exact ⟨_, rfl⟩
    obtain ⟨s, k1, k2, k3, k4, _⟩ := prune_steps hG hconn hd hfit h1
    simp only [pruneGraph, Bool.false_eq_true, if_false, Except.ok.injEq] at k1
    obtain ⟨G', k5, _⟩ := C06_tw_pruning_sound_partial _ k3 k4
      ⟨hT.service_nonneg, fun u v hu hv huv => hT.from_source u v hu hv (k2 u v huv),
        fun u v hu hv huv => hT.to_sink u v hu hv (k2 u v huv)⟩
    refine ⟨G', ?_⟩
    rw [k1] at k5
    simp only [pruneGraph, if_true, Bool.false_eq_true, if_false, Except.ok.injEq] at k5 h1 ⊢
    rw [h1]
    exact k5
  obtain ⟨N2, h⟩ := hex
  refine ⟨N2, h, fun r hr hload hon => ?_⟩
  obtain ⟨s, k1, k2, k3, k4, k5⟩ := prune_steps hG hconn hd hfit h
  obtain ⟨G', k6, k7⟩ := C06_tw_pruning_sound_partial _ k3 k4
    ⟨hT.service_nonneg, fun u v hu hv huv => hT.from_source u v hu hv (k2 u v huv),
      fun u v hu hv huv => hT.to_sink u v hu hv (k2 u v huv)⟩
  rw [k1] at k6
  simp only [Except.ok.injEq] at k6
  subst k6
  refine k7 r (k5 r hr (fun u v huv => ?_)) (onTime_with (c := N.cost) hon)
  have h1 := consecutive_sum_le N.demand _ (fun v hv => hdem v (route_mem_nodes hG hr v hv)) huv
  unfold load at hload
  rcases hload with h0 | ⟨c, hc, hle⟩
  · exact Or.inl h0
  · exact Or.inr ⟨c, hc, by linarith⟩

/-- **C05, pickup and delivery.** Demands may be negative: every route on which the load is never negative and always fits into
some vehicle is still a route after arcs were removed for the loads, and nothing new becomes a route. -/
theorem C05_requests_sound (G : Net) (c : ℚ) (cs : List ℚ) (hG : WellFormed G) :
    ∃ G', pruneGraph G (c :: cs) false = .ok G' ∧
      (∀ r, IsRoute G r → (∀ pre post, r = pre ++ post → 0 ≤ load G pre ∧ ∃ q ∈ c :: cs, load G pre ≤ q) → IsRoute G' r) ∧
      (∀ r, IsRoute G' r → IsRoute G r) := by
  obtain ⟨succ', h1, h2, _⟩ := C05_capacity_pruning_exact G c cs hG
  refine ⟨_, h1, ?_, ?_⟩
  · rintro r ⟨mid, rfl, hmid, hal⟩ hload
    refine ⟨mid, rfl, hmid, ?_⟩
    rw [along_iff] at hal ⊢
    intro u v huv
    refine (h2 u v).2 ⟨hal u v huv, ?_⟩
    obtain ⟨pre, post, hpp⟩ := mem_consecutive_iff.1 huv
    obtain ⟨h3, _⟩ := hload pre (u :: v :: post) hpp
    obtain ⟨_, q, hq, h4⟩ := hload (pre ++ [u, v]) post (by rw [hpp]; simp)
    refine ⟨q, hq, ?_⟩
    simp only [load, List.map_append, List.map_cons, List.map_nil, List.sum_append, List.sum_cons, List.sum_nil, add_zero] at h3 h4
    linarith
  · rintro r ⟨mid, rfl, hmid, hal⟩
    refine ⟨mid, rfl, hmid, ?_⟩
    rw [along_iff] at hal ⊢
    exact fun u v huv => ((h2 u v).1 (hal u v huv)).1

/-- The conditions can be met, and arcs are removed for both reasons: the customers 1 and 2 together are too much, 3 cannot be
reached from 1 in time. -/
def exCut : Net where
  nodes := [.source, .cust 1, .cust 2, .cust 3, .sink]
  succ := fun u => match u with
    | .source => [.cust 1, .cust 2, .cust 3]
    | .cust 1 => [.cust 2, .cust 3, .sink]
    | .cust 2 => [.cust 3, .sink]
    | .cust 3 => [.sink]
    | _ => []
  cost := fun _ _ => [1]
  demand := fun v => match v with
    | .cust 1 => 3
    | .cust 2 => 3
    | .cust 3 => 1
    | _ => 0
  time := fun _ _ => 10
  collect := fun _ => 0
  service := fun _ => 0
  freq := fun _ => 1
  request := fun _ => none
  lower := fun v => match v with
    | .cust 1 => 50
    | _ => 0
  upper := fun v => match v with
    | .cust 3 => 40
    | _ => 100

example : WellFormed exCut ∧ DepotConnected exCut ∧ DepotTriangle exCut ∧
    (∀ v ∈ exCut.customers, SomeCarries [5] (exCut.demand v)) ∧
    IsRoute exCut (routeOf [.cust 2, .cust 3]) ∧ SomeCarries [5] (load exCut (routeOf [.cust 2, .cust 3])) ∧
    OnTime exCut (routeOf [.cust 2, .cust 3]) ∧
    (pruneGraph exCut [5] true).toOption.map (fun N2 => (N2.succ (.cust 1), N2.succ (.cust 2))) =
      some ([.sink], [.cust 3, .sink]) := by
  refine ⟨?_, ?_, ?_, ?_, ?_, Or.inr ⟨5, by simp, by decide +kernel⟩, ?_, by decide +kernel⟩
  · refine ⟨by decide, ?_, ?_, by decide, by decide, ?_, rfl⟩
    · intro u; simp only [exCut]; split <;> decide
    · intro u; simp only [exCut]; split <;> first | decide | simp
    · intro u; simp only [exCut]; split <;> decide
  · intro n hn
    have : n = 1 ∨ n = 2 ∨ n = 3 := by simpa [exCut] using hn
    rcases this with rfl | rfl | rfl <;> decide
  · exact ⟨fun _ _ => le_refl _, fun _ _ _ _ _ => by norm_num [exCut], fun _ _ _ _ _ => by norm_num [exCut]⟩
  · have : ∀ v ∈ exCut.customers, exCut.demand v ≤ 5 := by decide +kernel
    exact fun v hv => Or.inr ⟨5, by simp, this v hv⟩
  · refine ⟨_, rfl, ?_, ?_⟩
    · intro v hv
      simp only [List.mem_cons, List.not_mem_nil, or_false] at hv
      rcases hv with rfl | rfl
      · exact ⟨⟨2, rfl⟩, by decide⟩
      · exact ⟨⟨3, rfl⟩, by decide⟩
    · rw [along_iff]
      intro u v huv
      have : (u = .source ∧ v = .cust 2) ∨ (u = .cust 2 ∧ v = .cust 3) ∨ (u = .cust 3 ∧ v = .sink) := by
        simpa [routeOf, consecutive] using huv
      rcases this with ⟨rfl, rfl⟩ | ⟨rfl, rfl⟩ | ⟨rfl, rfl⟩ <;> decide
  · show ∀ p ∈ _, _
    decide +kernel

/-- Two requests, from 1 to 3 and from 2 to 4: after the first pickup a second one would be too much, but after a delivery it
fits. -/
def exCutRequests : Net where
  nodes := [.source, .cust 1, .cust 2, .cust 3, .cust 4, .sink]
  succ := fun u => match u with
    | .source => [.cust 1]
    | .cust 1 => [.cust 2, .cust 3]
    | .cust 2 => [.cust 4]
    | .cust 3 => [.cust 2]
    | .cust 4 => [.sink]
    | _ => []
  cost := fun _ _ => [1]
  demand := fun v => match v with
    | .cust 1 => 3
    | .cust 2 => 4
    | .cust 3 => -3
    | .cust 4 => -4
    | _ => 0
  time := fun _ _ => 10

/-- The conditions of `C05_requests_sound` can be met by a route on which demands are negative, and an arc is removed. -/
example : WellFormed exCutRequests ∧ IsRoute exCutRequests (routeOf [.cust 1, .cust 3, .cust 2, .cust 4]) ∧
    (∀ pre post, routeOf [.cust 1, .cust 3, .cust 2, .cust 4] = pre ++ post →
      0 ≤ load exCutRequests pre ∧ ∃ q ∈ [(5 : ℚ)], load exCutRequests pre ≤ q) ∧
    (pruneGraph exCutRequests [5] false).toOption.map (fun G' => G'.succ (.cust 1)) = some [.cust 3] := by
  refine ⟨?_, ?_, ?_, by decide +kernel⟩
  · refine ⟨by decide, ?_, ?_, by decide, by decide, ?_, rfl⟩
    · intro u
      simp only [exCutRequests]
      split <;> decide
    · intro u v hv
      simp only [exCutRequests] at hv ⊢
      split at hv <;> simp at hv <;> (try rcases hv with rfl | rfl) <;> decide
    · intro u
      simp only [exCutRequests]
      split <;> decide
  · refine ⟨_, rfl, ?_, ⟨by decide, by decide, by decide, by decide, by decide, trivial⟩⟩
    intro v hv
    simp only [List.mem_cons, List.not_mem_nil, or_false] at hv
    rcases hv with rfl | rfl | rfl | rfl <;> exact ⟨⟨_, rfl⟩, by decide⟩
  · intro pre post hpp
    have : ∀ n ≤ 6, 0 ≤ load exCutRequests ((routeOf [.cust 1, .cust 3, .cust 2, .cust 4]).take n) ∧
        load exCutRequests ((routeOf [.cust 1, .cust 3, .cust 2, .cust 4]).take n) ≤ 5 := by decide +kernel
    have h1 := this pre.length (by
      have := congrArg List.length hpp
      simp only [routeOf, List.length_append, List.length_cons, List.length_nil] at this
      omega)
    rw [hpp, List.take_left' rfl] at h1
    exact ⟨h1.1, 5, by simp, h1.2⟩

end Vrpy
