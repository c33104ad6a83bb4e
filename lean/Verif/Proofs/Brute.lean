import Verif.Props.PricingLP

/-!
# Cycles and routes of small networks by enumeration, and a solver that knows some answers

Used in examples only.
-/

namespace Vrpy

open Spec

/-- The ways to go on from `u` along at most `n` arcs without meeting `seen` or a node twice. -/
def Net.goOn (G : Net) : Nat → Node → List Node → List (List Node)
  | 0, _, _ => [[]]
  | n + 1, u, seen => [] :: ((G.succ u).filter (fun v => v ∉ seen)).flatMap (fun v => (G.goOn n v (v :: seen)).map (v :: ·))

theorem Net.mem_goOn {G : Net} {n : Nat} {u : Node} {seen t : List Node} (hn : t.Nodup) (hs : ∀ v ∈ t, v ∉ seen)
    (ha : Along (fun u v => v ∈ G.succ u) (u :: t)) (hl : t.length ≤ n) : t ∈ G.goOn n u seen := by
  induction t generalizing n u seen with
  | nil => cases n <;> simp [Net.goOn]
  | cons v t ih =>
    obtain ⟨m, rfl⟩ : ∃ m, n = m + 1 := ⟨n - 1, by simp at hl; omega⟩
    simp only [Net.goOn, List.mem_cons, reduceCtorEq, List.mem_flatMap, List.mem_map, List.cons.injEq, false_or]
    refine ⟨v, ?_, t, ?_, rfl, rfl⟩
    · rw [List.mem_filter]
      exact ⟨ha.1, by simpa using hs v (by simp)⟩
    · refine ih hn.of_cons ?_ ha.2 (by simpa using hl)
      intro x hx hx'
      rcases List.mem_cons.1 hx' with rfl | hx'
      · exact (List.nodup_cons.1 hn).1 hx
      · exact hs x (List.mem_cons_of_mem _ hx) hx'

/-- The cycles of a network, each written as a node and how to go on from there. -/
def Net.cycles (G : Net) : List (Node × List Node) :=
  G.nodes.flatMap (fun a => ((G.goOn G.nodes.length a [a]).filter (fun t => a ∈ G.succ (t.getLastD a))).map (fun t => (a, t)))

theorem Net.mem_cycles {G : Net} (hG : WellFormed G) {a : Node} {t : List Node} (hn : (a :: t).Nodup)
    (ha : Along (fun u v => v ∈ G.succ u) (a :: t ++ [a])) : (a, t) ∈ G.cycles := by
  have hal := (along_iff _ _).1 ha
  have hmem : ∀ v ∈ a :: t, v ∈ G.nodes := by
    intro v hv
    obtain ⟨x, hx⟩ : ∃ x, (v, x) ∈ consecutive (a :: t ++ [a]) := by
      have : ∀ (l : List Node) (z : Node), v ∈ l → ∃ x, (v, x) ∈ consecutive (l ++ [z]) := by
        intro l
        induction l with
        | nil => intro z h; cases h
        | cons y l ih =>
          intro z h
          rcases List.mem_cons.1 h with rfl | h
          · cases l with
            | nil => exact ⟨z, by simp [consecutive]⟩
            | cons b l => exact ⟨b, by simp [consecutive_cons_cons]⟩
          · obtain ⟨x, hx⟩ := ih z h
            cases l with
            | nil => cases h
            | cons b l => exact ⟨x, by simp only [List.cons_append, consecutive_cons_cons] at hx ⊢; exact List.mem_cons_of_mem _ hx⟩
      exact this _ _ hv
    exact (hG.edge_mem v x (hal v x hx)).1
  simp only [Net.cycles, List.mem_flatMap, List.mem_map, List.mem_filter, Prod.mk.injEq]
  refine ⟨a, hmem a (by simp), t, ⟨?_, ?_⟩, rfl, rfl⟩
  · refine Net.mem_goOn (List.nodup_cons.1 hn).2 ?_ ?_ ?_
    · intro v hv hv'
      simp only [List.mem_singleton] at hv'
      subst hv'
      exact (List.nodup_cons.1 hn).1 hv
    · rw [along_iff]
      intro u v huv
      refine hal u v ?_
      have key : ∀ (l : List Node) (z : Node), (u, v) ∈ consecutive l → (u, v) ∈ consecutive (l ++ [z]) := by
        intro l
        induction l with
        | nil => intro z h; simp [consecutive] at h
        | cons y l ih =>
          intro z h
          cases l with
          | nil => simp [consecutive] at h
          | cons b l =>
            simp only [List.cons_append, consecutive_cons_cons, List.mem_cons] at h ⊢
            exact h.imp id (ih z)
      exact key _ _ huv
    · have := (hn.subperm (fun v hv => hmem v hv)).length_le
      simp at this
      omega
  · simp only [decide_eq_true_eq]
    refine hal _ _ ?_
    have : (t.getLastD a, a) ∈ consecutive (a :: t ++ [a]) := by
      have key : ∀ (l : List Node) (b z : Node), (l.getLastD b, z) ∈ consecutive (b :: l ++ [z]) := by
        intro l
        induction l with
        | nil => intro b z; simp [consecutive]
        | cons y l ih =>
          intro b z
          simp only [List.cons_append, consecutive_cons_cons, List.getLastD_cons]
          exact List.mem_cons_of_mem _ (ih y z)
      exact key t a a
    exact this

/-- All cycles cost at least nothing (at least something). -/
theorem noNegativeCycle_brute {G : Net} (hG : WellFormed G) {w : Node → Node → ℚ}
    (h : ∀ c ∈ G.cycles, 0 ≤ legSum w (c.1 :: c.2 ++ [c.1])) : NoNegativeCycle G w :=
  fun a t hn ha => h (a, t) (Net.mem_cycles hG hn ha)

theorem positiveCycles_brute {G : Net} (hG : WellFormed G) {w : Node → Node → ℚ}
    (h : ∀ c ∈ G.cycles, 0 < legSum w (c.1 :: c.2 ++ [c.1])) : PositiveCycles G w :=
  fun a t hn ha => h (a, t) (Net.mem_cycles hG hn ha)

/-- The routes of a network. -/
def Net.routes (G : Net) : List (List Node) := (G.goOn G.nodes.length .source [.source]).map (Node.source :: ·)

theorem Net.mem_routes {G : Net} {r : List Node} (hG : WellFormed G) (hr : IsSimpleRoute G r) : r ∈ G.routes := by
  obtain ⟨⟨mid, rfl, h1, h2⟩, h3⟩ := hr
  unfold Net.routes
  refine List.mem_map.2 ⟨mid ++ [Node.sink], Net.mem_goOn (List.nodup_cons.1 h3).2 ?_ h2 ?_, rfl⟩
  · intro v hv hv'
    simp only [List.mem_singleton] at hv'
    subst hv'
    exact (List.nodup_cons.1 h3).1 hv
  · have := (h3.subperm (l₂ := G.nodes) (by
      intro v hv
      simp only [routeOf, List.mem_cons, List.mem_append, List.not_mem_nil, or_false] at hv
      rcases hv with rfl | hv | rfl
      · exact hG.source_mem
      · exact (h1 v hv).2
      · exact hG.sink_mem)).length_le
    simp [routeOf] at this ⊢
    omega

/-- A feasible point of the pricing problem is optimal if no route within the limits costs less. -/
theorem optimal_of_routes_goods {q : PricingLP} {prob : LP PVar} {p : PVar → ℚ} (hG : WellFormed q.G)
    (hd : q.G.demand .source = 0) (hs : q.G.service .sink = 0) (hnn : Nonnegative q.G q.timeWindows)
    (hpd : q.pickupDelivery = false) (hdc : q.distributionCollection = true → CollectsGoods q.G)
    (hcyc : NoNegativeCycle q.G q.weight) (hdirect : Node.sink ∈ q.G.succ .source → 0 ≤ q.weight .source .sink)
    (hform : q.formulate = .ok prob) (hp : prob.Feasible p) (h0 : prob.obj.eval p ≤ 0)
    (hr : ∀ r ∈ q.G.routes, prob.obj.eval p ≤ legSum q.weight r ∨ r.getLast? ≠ some .sink ∨
      q.distributionCollection = true ∧ ∀ cap, q.caps[q.vehicleType]? = some cap → ¬ GoodsWithin q.G cap r) :
    prob.Optimal p := by
  refine ⟨hp, fun x hx => ?_⟩
  by_contra hlt
  push Not at hlt
  obtain ⟨y, hy⟩ := optimal_exists hform hx
  have hyx := hy.best x hx
  obtain ⟨r, h1, h2, _, h3⟩ := C17_optimal_value hG hd hs hnn hpd hdc hcyc hdirect hform hy (by linarith)
  rcases hr r (Net.mem_routes hG h1.simple) with h | h | ⟨hb, h⟩
  · linarith
  · obtain ⟨⟨mid, rfl, _⟩, _⟩ := h1.simple
    exact h (routeOf_getLast mid)
  · obtain ⟨cap, g1, g2⟩ := h3 hb
    exact h cap g1 g2

theorem optimal_of_routes {q : PricingLP} {prob : LP PVar} {p : PVar → ℚ} (hG : WellFormed q.G)
    (hd : q.G.demand .source = 0) (hs : q.G.service .sink = 0) (hnn : Nonnegative q.G q.timeWindows)
    (hpd : q.pickupDelivery = false) (hdc : q.distributionCollection = false)
    (hcyc : NoNegativeCycle q.G q.weight) (hdirect : Node.sink ∈ q.G.succ .source → 0 ≤ q.weight .source .sink)
    (hform : q.formulate = .ok prob) (hp : prob.Feasible p) (h0 : prob.obj.eval p ≤ 0)
    (hr : ∀ r ∈ q.G.routes, prob.obj.eval p ≤ legSum q.weight r ∨ r.getLast? ≠ some .sink) : prob.Optimal p :=
  optimal_of_routes_goods hG hd hs hnn hpd (fun hb => by rw [hdc] at hb; cases hb) hcyc hdirect hform hp h0
    (fun r h => (hr r h).imp_right Or.inl)

open Classical in
/-- An exact solver that knows the answers to some problems. -/
noncomputable def knownSolver (known : List (LP PVar × (PVar → ℚ))) (prob : LP PVar) : PricingLP.Answer :=
  match known.find? (fun k => @decide (k.1 = prob) (instDecidableEqLP _ _)) with
  | some k => ⟨some (prob.obj.eval k.2), false, k.2⟩
  | none => if h : ∃ x, prob.Optimal x then ⟨some (prob.obj.eval h.choose), false, h.choose⟩ else ⟨none, true, fun _ => 0⟩

theorem knownSolver_ok {known : List (LP PVar × (PVar → ℚ))} (h : ∀ k ∈ known, k.1.Optimal k.2) :
    SolverExact (knownSolver known) ∧ SolverSound (knownSolver known) := by
  constructor
  · intro prob x hx
    unfold knownSolver
    split
    · rename_i k hk
      have h1 := List.find?_some hk
      simp only [decide_eq_true_eq] at h1
      have h2 := h k (List.mem_of_find?_eq_some hk)
      rw [h1] at h2
      exact ⟨rfl, h2, rfl⟩
    · rw [dif_pos ⟨x, hx⟩]
      exact ⟨rfl, Exists.choose_spec ⟨x, hx⟩, rfl⟩
  · intro prob z hz hi
    unfold knownSolver at hz hi ⊢
    split at hz
    · rename_i k hk
      have h1 := List.find?_some hk
      simp only [decide_eq_true_eq] at h1
      have h2 := h k (List.mem_of_find?_eq_some hk)
      rw [h1] at h2
      exact ⟨h2.feasible, by simpa using hz⟩
    · rename_i hk
      split at hz
      · rename_i hx
        rw [dif_pos hx]
        exact ⟨hx.choose_spec.feasible, by simpa using hz⟩
      · cases hz

end Vrpy
