import Verif.Proofs.Prune
import Mathlib.Tactic.NormNum

/-!
# C05, C06: removal of infeasible arcs
-/

namespace Vrpy

open Spec

/-- **C05, soundness.** With non-negative demands, every route whose total demand fits some vehicle of the fleet is
still a route after the capacity preprocessing; conversely no route is invented. -/
theorem C05_capacity_pruning_sound (G : Net) (c : ℚ) (cs : List ℚ) (hG : WellFormed G)
    (hdem : ∀ v ∈ G.nodes, 0 ≤ G.demand v) :
    ∃ G', pruneGraph G (c :: cs) false = .ok G' ∧
      (∀ r, IsRoute G r → (∃ q ∈ c :: cs, load G r ≤ q) → IsRoute G' r) ∧
      (∀ r, IsRoute G' r → IsRoute G r) := by
  refine ⟨_, rfl, ?_, ?_⟩
  · rintro r ⟨mid, rfl, hmid, ha⟩ ⟨q, hq, hle⟩
    refine ⟨mid, rfl, hmid, ?_⟩
    rw [along_iff] at ha ⊢
    intro a b hab
    refine mem_removeEdges.2 ⟨ha a b hab, ?_⟩
    intro hbad
    rw [List.mem_filter] at hbad
    have hbad := of_decide_eq_true hbad.2
    have hnn : ∀ v ∈ routeOf mid, 0 ≤ G.demand v := by
      intro v hv
      simp only [routeOf, List.mem_cons, List.mem_append, List.not_mem_nil, or_false] at hv
      rcases hv with rfl | hv | rfl
      · exact hdem _ hG.source_mem
      · exact hdem _ (hmid v hv).2
      · exact hdem _ hG.sink_mem
    have h1 := consecutive_sum_le G.demand _ hnn hab
    have h2 := le_maxOf hq
    simp only [load] at hle
    linarith
  · rintro r ⟨mid, rfl, hmid, ha⟩
    refine ⟨mid, rfl, hmid, ?_⟩
    rw [along_iff] at ha ⊢
    exact fun a b hab => (mem_removeEdges.1 (ha a b hab)).1

/-- **C05, exactness.** Exactly the arcs whose end points together exceed every capacity of the fleet are deleted, and
nothing else is changed; in particular the depot arcs of every customer that fits some vehicle survive. -/
theorem C05_capacity_pruning_exact (G : Net) (c : ℚ) (cs : List ℚ) (hG : WellFormed G) :
    ∃ succ', pruneGraph G (c :: cs) false = .ok { G with succ := succ' } ∧
      (∀ u v, v ∈ succ' u ↔ v ∈ G.succ u ∧ ∃ q ∈ c :: cs, G.demand u + G.demand v ≤ q) ∧
      (G.demand .source = 0 → G.demand .sink = 0 → ∀ v ∈ G.customers, (∃ q ∈ c :: cs, G.demand v ≤ q) →
        (v ∈ G.succ .source → v ∈ succ' .source) ∧ (Node.sink ∈ G.succ v → Node.sink ∈ succ' v)) := by
  have hex : ∀ u v, v ∈ (removeInfeasibleArcsCapacities G (maxOf c cs)).succ u ↔
      v ∈ G.succ u ∧ ∃ q ∈ c :: cs, G.demand u + G.demand v ≤ q := by
    intro u v
    unfold removeInfeasibleArcsCapacities
    rw [mem_removeEdges, List.mem_filter, Net.mem_edges hG]
    constructor
    · rintro ⟨h1, h2⟩
      refine ⟨h1, maxOf c cs, foldl_max_mem c cs, ?_⟩
      by_contra hcon
      exact h2 ⟨h1, by simpa using hcon⟩
    · rintro ⟨h1, q, hq, hle⟩
      refine ⟨h1, fun h2 => ?_⟩
      have := of_decide_eq_true h2.2
      have := le_maxOf hq
      simp only at *
      linarith
  refine ⟨_, rfl, hex, ?_⟩
  intro h1 h2 v _ ⟨q, hq, hle⟩
  constructor
  · intro h
    exact (hex _ _).2 ⟨h, q, hq, by rw [h1, zero_add]; exact hle⟩
  · intro h
    exact (hex _ _).2 ⟨h, q, hq, by rw [h2, add_zero]; exact hle⟩

/-- Driving straight from or to the depot is never slower than through another customer, service included. -/
structure DepotTriangle (G : Net) : Prop where
  service_nonneg : ∀ v ∈ G.nodes, 0 ≤ G.service v
  from_source : ∀ u v, u ∈ G.customers → v ∈ G.customers → v ∈ G.succ u →
    G.time .source v ≤ G.time .source u + G.service u + G.time u v
  to_sink : ∀ u v, u ∈ G.customers → v ∈ G.customers → v ∈ G.succ u →
    G.time u .sink ≤ G.service u + G.time u v + G.time v .sink

theorem route_cases {G : Net} {u : Node} {rest : List Node}
    (hr : ∃ mid : List Node, rest = mid ++ [.sink] ∧ ∀ v ∈ mid, v ∈ G.customers)
    (ha : Along (fun u v => v ∈ G.succ u) (u :: rest)) :
    (rest = [.sink] ∧ Node.sink ∈ G.succ u) ∨ (∃ v rest', rest = v :: rest' ∧ v ∈ G.customers ∧ v ∈ G.succ u ∧
      Along (fun u v => v ∈ G.succ u) (v :: rest') ∧
      ∃ mid : List Node, rest' = mid ++ [.sink] ∧ ∀ v ∈ mid, v ∈ G.customers) := by
  obtain ⟨mid, rfl, hmid⟩ := hr
  cases mid with
  | nil => exact Or.inl ⟨rfl, ha.1⟩
  | cons v mid => exact Or.inr ⟨v, mid ++ [.sink], rfl, hmid v (by simp), ha.1, ha.2, mid, rfl,
      fun w hw => hmid w (by simp [hw])⟩

/-- A vehicle at customer `u` at time `t` that is on time for the rest of its route can also go straight home. -/
theorem straight_home {G : Net} (hT : DepotTriangle G) (rest : List Node) :
    ∀ (u : Node) (t : ℚ), u ∈ G.customers → (∃ mid : List Node, rest = mid ++ [.sink] ∧ ∀ v ∈ mid, v ∈ G.customers) →
      Along (fun u v => v ∈ G.succ u) (u :: rest) →
      (∀ p ∈ rest.zip (arrivalsFrom G t u rest), p.2 ≤ G.upper p.1) → t ≤ G.upper .sink - G.time u .sink := by
  induction rest with
  | nil => intro u t _ ⟨mid, h, _⟩; simp at h
  | cons x rest ih =>
    intro u t hu hr ha hon
    rcases route_cases hr ha with ⟨h, _⟩ | ⟨v, rest', h, hv, huv, ha', hr'⟩
    · cases h
      have := hon (.sink, max (t + G.service u + G.time u .sink) (G.lower .sink)) (by simp [arrivalsFrom])
      have h1 := le_max_left (t + G.service u + G.time u .sink) (G.lower .sink)
      have h2 := hT.service_nonneg u (mem_customers.1 hu).1
      simp only at this
      linarith
    · cases h
      have := ih x (max (t + G.service u + G.time u x) (G.lower x)) hv hr' ha' (by
        intro p hp
        exact hon p (by simp only [arrivalsFrom, List.zip_cons_cons, List.mem_cons]; exact Or.inr hp))
      have h1 := le_max_left (t + G.service u + G.time u x) (G.lower x)
      have h2 := hT.to_sink u x hu hv huv
      linarith

/-- `t` is a possible time at `u`: not before the vehicle can be there coming straight from Source. -/
def Reachable (G : Net) (u : Node) (t : ℚ) : Prop :=
  (u = .source ∧ t = G.lower .source) ∨ (u ∈ G.customers ∧ G.lower .source + G.time .source u ≤ t)

theorem source_not_customer (G : Net) : Node.source ∉ G.customers := by simp [mem_customers]
theorem sink_not_customer (G : Net) : Node.sink ∉ G.customers := by simp [mem_customers]

/-- Along an on-time route: same arrivals, on time for the strengthened windows, and no arc fails the test. -/
theorem tw_keep {G : Net} (hS : Node.source ∈ G.nodes) (hT : DepotTriangle G) (rest : List Node) :
    ∀ (u : Node) (t : ℚ), Reachable G u t → (strengthened G).lower u ≤ t →
      (∃ mid : List Node, rest = mid ++ [.sink] ∧ ∀ v ∈ mid, v ∈ G.customers) →
      Along (fun u v => v ∈ G.succ u) (u :: rest) →
      (∀ p ∈ rest.zip (arrivalsFrom G t u rest), p.2 ≤ G.upper p.1) →
      (∀ p ∈ rest.zip (arrivalsFrom (strengthened G) t u rest), p.2 ≤ (strengthened G).upper p.1) ∧
      (∀ e ∈ consecutive (u :: rest), ¬ TwBad (strengthened G) e) := by
  induction rest with
  | nil => intro u t _ _ ⟨mid, h, _⟩; simp at h
  | cons x rest ih =>
    intro u t hreach hlow hr ha hon
    have hx : max (t + G.service u + G.time u x) ((strengthened G).lower x) =
        max (t + G.service u + G.time u x) (G.lower x) ∧
        max (t + G.service u + G.time u x) (G.lower x) ≤ (strengthened G).upper x ∧
        (x ∈ G.customers → G.lower .source + G.time .source x ≤ max (t + G.service u + G.time u x) (G.lower x)) := by
      rcases route_cases hr ha with ⟨h, _⟩ | ⟨v, rest', h, hv, huv, ha', hr'⟩
      · cases h
        refine ⟨by simp [strengthened, sink_not_customer], ?_, fun h => absurd h (sink_not_customer G)⟩
        have := hon (.sink, max (t + G.service u + G.time u .sink) (G.lower .sink)) (by simp [arrivalsFrom])
        simpa [strengthened, sink_not_customer] using this
      · cases h
        have hge : G.lower .source + G.time .source x ≤ t + G.service u + G.time u x := by
          rcases hreach with ⟨rfl, rfl⟩ | ⟨hu, hle⟩
          · have := hT.service_nonneg .source hS
            linarith
          · have := hT.from_source u x hu hv huv
            linarith
        refine ⟨?_, ?_, fun _ => le_trans hge (le_max_left _ _)⟩
        · simp only [strengthened, hv, if_true]
          rw [max_comm (G.lower x), ← max_assoc, max_eq_left hge]
        · simp only [strengthened, hv, if_true]
          refine le_min ?_ ?_
          · exact hon (x, _) (by simp [arrivalsFrom])
          · exact straight_home hT rest x _ hv hr' ha' (by
              intro p hp
              exact hon p (by simp only [arrivalsFrom, List.zip_cons_cons, List.mem_cons]; exact Or.inr hp))
    have hgood : ¬ TwBad (strengthened G) (u, x) := by
      unfold TwBad
      have h1 := le_max_left (t + G.service u + G.time u x) (G.lower x)
      have h2 := hx.2.1
      show ¬ ((strengthened G).lower u + G.time u x + G.service u > (strengthened G).upper x)
      linarith
    rcases route_cases hr ha with ⟨h, _⟩ | ⟨v, rest', h, hv, huv, ha', hr'⟩
    · cases h
      refine ⟨?_, ?_⟩
      · intro p hp
        have hp' : p = (.sink, max (t + G.service u + G.time u .sink) ((strengthened G).lower .sink)) := by
          simpa [arrivalsFrom, strengthened] using hp
        rw [hp']
        simp only
        rw [hx.1]
        exact hx.2.1
      · intro e he
        simp only [consecutive, List.dropLast_cons₂, List.dropLast_singleton, List.tail_cons, List.zip_cons_cons,
          List.zip_nil_left, List.mem_singleton] at he
        rw [he]
        exact hgood
    · cases h
      have harr : arrivalsFrom (strengthened G) t u (x :: rest) =
          max (t + G.service u + G.time u x) (G.lower x) ::
            arrivalsFrom (strengthened G) (max (t + G.service u + G.time u x) (G.lower x)) x rest := by
        conv_lhs => rw [arrivalsFrom]
        have : max (t + (strengthened G).service u + (strengthened G).time u x) ((strengthened G).lower x) =
            max (t + G.service u + G.time u x) (G.lower x) := hx.1
        rw [this]
      obtain ⟨ih1, ih2⟩ := ih x (max (t + G.service u + G.time u x) (G.lower x))
        (Or.inr ⟨hv, hx.2.2 hv⟩) (by
          have := hx.1
          rw [← this]
          exact le_max_right _ _) hr' ha' (by
          intro p hp
          exact hon p (by simp only [arrivalsFrom, List.zip_cons_cons, List.mem_cons]; exact Or.inr hp))
      refine ⟨?_, ?_⟩
      · intro p hp
        rw [harr, List.zip_cons_cons, List.mem_cons] at hp
        rcases hp with rfl | hp
        · exact hx.2.1
        · exact ih1 p hp
      · intro e he
        rw [consecutive_cons_cons] at he
        rcases List.mem_cons.1 he with rfl | he
        · exact hgood
        · exact ih2 e he

theorem lower_le_strengthened (G : Net) (v : Node) :
    G.lower v ≤ (strengthened G).lower v ∧ (strengthened G).upper v ≤ G.upper v := by
  simp only [strengthened]
  by_cases h : v ∈ G.customers <;> simp [h]

theorem twBad_mono {G : Net} {e : Node × Node} (h : TwBad G e) : TwBad (strengthened G) e := by
  unfold TwBad at *
  have h1 := lower_le_strengthened G e.1
  have h2 := lower_le_strengthened G e.2
  show (strengthened G).lower e.1 + G.time e.1 e.2 + G.service e.1 > (strengthened G).upper e.2
  linarith

/-- **C06 (partial).** Full claim: on *every* network the time-window preprocessing keeps every on-time route.  That is
false without the triangle inequality at the depot (`C06_no_triangle_counterexample`).  Proved: with it, the
preprocessing raises nothing and every on-time route is still a route and still on time afterwards. -/
theorem C06_tw_pruning_sound_partial (G : Net) (hG : WellFormed G) (hD : DepotConnected G) (hT : DepotTriangle G) :
    ∃ G', pruneGraph G [] true = .ok G' ∧ ∀ r, IsRoute G r → OnTime G r → IsRoute G' r ∧ OnTime G' r := by
  have hkeep : ∀ mid : List Node, (∀ v ∈ mid, v ∈ G.customers) →
      Along (fun u v => v ∈ G.succ u) (routeOf mid) → OnTime G (routeOf mid) →
      OnTime (strengthened G) (routeOf mid) ∧ ∀ e ∈ consecutive (routeOf mid), ¬ TwBad (strengthened G) e := by
    intro mid hmid ha hon
    have hl : (strengthened G).lower .source = G.lower .source := by simp [strengthened, source_not_customer]
    have := tw_keep hG.source_mem hT (mid ++ [Node.sink]) .source (G.lower .source) (Or.inl ⟨rfl, rfl⟩) (le_of_eq hl)
      ⟨mid, rfl, hmid⟩ ha hon
    refine ⟨?_, this.2⟩
    show ∀ p ∈ _, _
    rw [hl]
    exact this.1
  cases he : G.edges with
  | nil =>
    refine ⟨G, by simp [pruneGraph, removeInfeasibleArcsTimeWindows, he, pure, Except.pure, Net.removeEdges], ?_⟩
    exact fun r h1 h2 => ⟨h1, h2⟩
  | cons e0 es =>
    refine ⟨_, tw_result hG hD e0 es he, ?_⟩
    rintro r ⟨mid, rfl, hmid, ha⟩ hon
    obtain ⟨k1, k2⟩ := hkeep mid (fun v hv => by
      obtain ⟨⟨n, rfl⟩, h⟩ := hmid v hv
      exact mem_customers.2 ⟨h, by simp, by simp⟩) ha hon
    refine ⟨⟨mid, rfl, hmid, ?_⟩, (onTime_removeEdges _).2 k1⟩
    rw [along_iff] at ha ⊢
    intro a b hab
    refine mem_removeEdges.2 ⟨ha a b hab, ?_⟩
    intro hbad
    have hk := k2 (a, b) hab
    rw [List.mem_append] at hbad
    rcases hbad with hbad | hbad
    · by_cases h : TwBad G e0
      · simp only [h, if_true, List.mem_singleton] at hbad
        exact hk (hbad ▸ twBad_mono h)
      · simp [h] at hbad
    · rw [List.mem_filter] at hbad
      exact hk (of_decide_eq_true hbad.2)

theorem arrivals_mono (G : Net) (rest : List Node) :
    ∀ (u : Node) (t t' : ℚ), t ≤ t' →
      (∀ p ∈ rest.zip (arrivalsFrom (strengthened G) t' u rest), p.2 ≤ (strengthened G).upper p.1) →
      ∀ p ∈ rest.zip (arrivalsFrom G t u rest), p.2 ≤ G.upper p.1 := by
  induction rest with
  | nil => intro u t t' _ _ p hp; simp at hp
  | cons x rest ih =>
    intro u t t' ht hon p hp
    rw [arrivalsFrom, List.zip_cons_cons, List.mem_cons] at hp
    have hle : max (t + G.service u + G.time u x) (G.lower x) ≤
        max (t' + G.service u + G.time u x) ((strengthened G).lower x) := by
      apply max_le_max
      · linarith
      · exact (lower_le_strengthened G x).1
    rcases hp with rfl | hp
    · have := hon (x, max (t' + G.service u + G.time u x) ((strengthened G).lower x)) (by
        rw [arrivalsFrom, List.zip_cons_cons]
        exact List.mem_cons_self ..)
      exact le_trans hle (le_trans this (lower_le_strengthened G x).2)
    · refine ih x _ _ hle ?_ p hp
      intro q hq
      apply hon q
      rw [arrivalsFrom, List.zip_cons_cons]
      exact List.mem_cons_of_mem _ hq

/-- **C06, converse (for every network).** The preprocessing only restricts: a route that is on time afterwards was a
route of the network and on time under the user's windows. -/
theorem C06_tw_pruning_only_restricts (G : Net) (hG : WellFormed G) (hD : DepotConnected G) :
    ∃ G', pruneGraph G [] true = .ok G' ∧ ∀ r, IsRoute G' r → OnTime G' r → IsRoute G r ∧ OnTime G r := by
  cases he : G.edges with
  | nil =>
    refine ⟨G, by simp [pruneGraph, removeInfeasibleArcsTimeWindows, he, pure, Except.pure, Net.removeEdges], ?_⟩
    exact fun r h1 h2 => ⟨h1, h2⟩
  | cons e0 es =>
    refine ⟨_, tw_result hG hD e0 es he, ?_⟩
    rintro r ⟨mid, rfl, hmid, ha⟩ hon
    refine ⟨⟨mid, rfl, hmid, ?_⟩, ?_⟩
    · rw [along_iff] at ha ⊢
      exact fun a b hab => (mem_removeEdges.1 (ha a b hab)).1
    · exact arrivals_mono G _ _ _ _ (lower_le_strengthened G .source).1
        ((onTime_removeEdges _).1 hon)

/-! ## Concrete cases -/

/-- Source-1-2-Sink with unit travel times, except that the direct way from Source to 2 takes 100. -/
def exC06 : Net where
  nodes := [.source, .cust 1, .cust 2, .sink]
  succ := fun u => match u with
    | .source => [.cust 1, .cust 2, .sink]
    | .cust 1 => [.cust 2, .sink]
    | .cust 2 => [.sink]
    | _ => []
  demand := fun v => if v.isDepot then 0 else 3
  collect := fun _ => 0
  service := fun _ => 0
  lower := fun _ => 0
  upper := fun v => if v = .sink then 60 else 50
  freq := fun _ => 1
  request := fun _ => none
  cost := fun _ _ => [1]
  time := fun u v => if u = .source ∧ v = .cust 2 then 100 else 1

theorem exC06_wf : WellFormed exC06 := by
  refine ⟨by decide, ?_, ?_, by decide, by decide, ?_, rfl⟩
  · intro u; simp only [exC06]; split <;> decide
  · intro u; simp only [exC06]; split <;> first | decide | simp
  · intro u; simp only [exC06]; split <;> decide

theorem exC06_depot : DepotConnected exC06 := by
  intro n hn
  simp only [exC06, List.mem_cons, Node.cust.injEq, reduceCtorEq, List.not_mem_nil, or_false, false_or] at hn
  rcases hn with rfl | rfl <;> decide

/-- **C06 fails without the triangle inequality**: in `exC06` the route Source-1-2-Sink is on time, but after the
preprocessing its last arc is gone. -/
theorem C06_no_triangle_counterexample :
    IsRoute exC06 [.source, .cust 1, .cust 2, .sink] ∧ OnTime exC06 [.source, .cust 1, .cust 2, .sink] ∧
    ∃ G', pruneGraph exC06 [] true = .ok G' ∧ ¬ IsRoute G' [.source, .cust 1, .cust 2, .sink] := by
  refine ⟨⟨[.cust 1, .cust 2], rfl, ?_, ?_⟩, ?_, ?_⟩
  · intro v hv
    simp only [List.mem_cons, List.not_mem_nil, or_false] at hv
    rcases hv with rfl | rfl <;> exact ⟨⟨_, rfl⟩, by decide⟩
  · refine ⟨?_, ?_, ?_, trivial⟩ <;> decide
  · show ∀ p ∈ _, _
    decide +kernel
  · refine ⟨_, tw_result exC06_wf exC06_depot _ _ rfl, ?_⟩
    rintro ⟨mid, hmid, _, ha⟩
    have h := ha.2.2.1
    have h := mem_removeEdges.1 h
    exact absurd h.2 (by decide +kernel)

/-- The hypotheses of C06 (partial) can be met by a network with a real choice: `exC06` with all travel times 1. -/
example : DepotTriangle { exC06 with time := fun _ _ => 1 } ∧
    OnTime { exC06 with time := fun _ _ => 1 } [.source, .cust 1, .cust 2, .sink] := by
  refine ⟨⟨fun _ _ => le_refl _, ?_, ?_⟩, ?_⟩
  · intro u v _ _ _; simp only [exC06]; norm_num
  · intro u v _ _ _; simp only [exC06]; norm_num
  · show ∀ p ∈ _, _
    decide +kernel

/-- C05 on `exC06` with capacities 4 and 5: the arc 1-2 (demands 3 and 3) is deleted, the depot arcs survive. -/
example : (match pruneGraph exC06 [4, 5] false with
    | .ok G' => (G'.succ (.cust 1), G'.succ .source)
    | .error _ => ([], [])) = ([.sink], [.cust 1, .cust 2, .sink]) := by decide +kernel

end Vrpy
