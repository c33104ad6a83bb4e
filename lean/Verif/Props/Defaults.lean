import Verif.Proofs.PreSolve
import Mathlib.Tactic.NormNum

/-!
# C47, C48: default attributes and the Sink window
-/

namespace Vrpy

open Spec

private theorem addSourceSink_facts (K : Nat) (G : DiGraph) :
    (addSourceSink K G).nodes = G.nodes ∧ (addSourceSink K G).nd = G.nd ∧
    (∀ u v, v ∈ (addSourceSink K G).succ u ↔ v ∈ G.succ u ∨ (u = .source ∧ v = .sink)) ∧
    (∀ u v, v ∈ G.succ u → (addSourceSink K G).ed u v = G.ed u v) ∧
    (Node.sink ∉ G.succ .source →
      (addSourceSink K G).ed .source .sink = { cost := some (.list (List.replicate K 0)) }) := by
  unfold addSourceSink
  by_cases h : Node.sink ∈ G.succ .source
  · rw [if_pos (by simpa [DiGraph.hasEdge] using h)]
    refine ⟨rfl, rfl, ?_, fun _ _ _ => rfl, fun h' => absurd h h'⟩
    intro u v
    constructor
    · exact Or.inl
    · rintro (h' | ⟨rfl, rfl⟩)
      · exact h'
      · exact h
  · simp only [DiGraph.hasEdge, h, decide_false, Bool.false_eq_true, if_false]
    refine ⟨rfl, rfl, ?_, ?_, fun _ => by simp [DiGraph.addEdge]⟩
    · intro u v
      simp only [DiGraph.addEdge]
      by_cases hu : u = .source
      · subst hu; simp
      · simp [hu]
    · intro u v hv
      simp only [DiGraph.addEdge]
      rw [if_neg]
      rintro ⟨rfl, rfl⟩
      exact h hv

/-- The network before the Sink window is adjusted. -/
private def G3 (K : Nat) (G : DiGraph) : DiGraph := setTimeToZeroIfMissing (addSourceSink K (setZeroAttributes G))

private theorem updateDummy_eq (K : Nat) (G : DiGraph) (hs : Node.source ∈ G.nodes) (ht : Node.sink ∈ G.nodes) :
    ∃ N, updateDummyAttributes K G = .ok N ∧ N.nodes = G.nodes ∧ N.succ = (G3 K G).succ ∧
      (∀ u v, N.cost u v = (G3 K G).toNet.cost u v) ∧ (∀ u v, N.time u v = (G3 K G).toNet.time u v) ∧
      (∀ v, N.demand v = (G3 K G).toNet.demand v ∧ N.collect v = (G3 K G).toNet.collect v ∧
        N.service v = (G3 K G).toNet.service v ∧ N.lower v = (G3 K G).toNet.lower v ∧
        N.freq v = (G3 K G).toNet.freq v ∧ N.request v = (G3 K G).toNet.request v ∧
        (v ≠ .sink → N.upper v = (G3 K G).toNet.upper v)) ∧
      ((G3 K G).toNet.upper .sink ≠ 0 → N.upper .sink = (G3 K G).toNet.upper .sink) ∧
      ((G3 K G).toNet.upper .sink = 0 →
        (∀ u, Node.sink ∈ N.succ u → u ∈ G.nodes →
          N.upper u + N.service u + N.time u .sink ≤ N.upper .sink ∨ u = .sink) ∧
        ∃ u, Node.sink ∈ N.succ u ∧ u ∈ G.nodes ∧
          (u = .sink ∨ N.upper u + N.service u + N.time u .sink = N.upper .sink)) := by
  have hnodes : (G3 K G).nodes = G.nodes := (addSourceSink_facts K (setZeroAttributes G)).1
  have hss : Node.sink ∈ (G3 K G).succ .source :=
    ((addSourceSink_facts K (setZeroAttributes G)).2.2.1 .source .sink).2 (Or.inr ⟨rfl, rfl⟩)
  have hpre : Node.source ∈ (G3 K G).preds .sink := by
    simp only [DiGraph.preds, List.mem_filter, DiGraph.hasEdge, decide_eq_true_eq, hnodes]
    exact ⟨hs, hss⟩
  unfold updateDummyAttributes
  change ∃ N, (match readjustSinkTimeWindows (G3 K G) with | .error e => .error e | .ok G' => .ok G'.toNet) = Except.ok N ∧ _
  unfold readjustSinkTimeWindows
  by_cases hu : ((G3 K G).nd .sink).upper.getD 0 = 0
  · rw [if_pos hu]
    cases hl : ((G3 K G).preds .sink).map (fun u =>
        ((G3 K G).nd u).upper.getD 0 + ((G3 K G).nd u).serviceTime.getD 0 + ((G3 K G).ed u .sink).time.getD 0) with
    | nil =>
      rw [List.map_eq_nil_iff] at hl
      rw [hl] at hpre
      simp at hpre
    | cons x xs =>
      refine ⟨_, rfl, hnodes, rfl, fun _ _ => rfl, fun _ _ => rfl, ?_, ?_, ?_⟩
      · intro v
        simp only [DiGraph.toNet, DiGraph.setNode]
        by_cases hv : v = .sink
        · subst hv; simp
        · simp [hv]
      · intro h; exact absurd hu h
      · intro _
        have hmemiff : ∀ u, u ∈ (G3 K G).preds .sink ↔ u ∈ G.nodes ∧ Node.sink ∈ (G3 K G).succ u := by
          intro u
          simp only [DiGraph.preds, List.mem_filter, DiGraph.hasEdge, decide_eq_true_eq, hnodes]
        have hval : ∀ u, u ≠ .sink → (DiGraph.setNode (G3 K G) .sink { (G3 K G).nd .sink with upper := some (xs.foldl max x) }).toNet.upper u +
            (DiGraph.setNode (G3 K G) .sink { (G3 K G).nd .sink with upper := some (xs.foldl max x) }).toNet.service u +
            (DiGraph.setNode (G3 K G) .sink { (G3 K G).nd .sink with upper := some (xs.foldl max x) }).toNet.time u .sink =
            ((G3 K G).nd u).upper.getD 0 + ((G3 K G).nd u).serviceTime.getD 0 + ((G3 K G).ed u .sink).time.getD 0 := by
          intro u hu
          simp [DiGraph.toNet, DiGraph.setNode, hu]
        have hsink : (DiGraph.setNode (G3 K G) .sink { (G3 K G).nd .sink with upper := some (xs.foldl max x) }).toNet.upper .sink =
            xs.foldl max x := by simp [DiGraph.toNet, DiGraph.setNode]
        constructor
        · intro u hu1 hu2
          by_cases hus : u = .sink
          · exact Or.inr hus
          · left
            rw [hval u hus, hsink]
            have : ((G3 K G).nd u).upper.getD 0 + ((G3 K G).nd u).serviceTime.getD 0 + ((G3 K G).ed u .sink).time.getD 0
                ∈ x :: xs := by
              rw [← hl]
              exact List.mem_map.2 ⟨u, (hmemiff u).2 ⟨hu2, hu1⟩, rfl⟩
            rcases List.mem_cons.1 this with h | h
            · rw [h]; exact (le_foldl_max x xs).1
            · exact (le_foldl_max x xs).2 _ h
        · have := foldl_max_mem x xs
          rw [← hl, List.mem_map] at this
          obtain ⟨u, hu1, hu2⟩ := this
          refine ⟨u, ((hmemiff u).1 hu1).2, ((hmemiff u).1 hu1).1, ?_⟩
          by_cases hus : u = .sink
          · exact Or.inl hus
          · right
            rw [hval u hus, hsink]
            exact hu2
  · rw [if_neg hu]
    exact ⟨_, rfl, hnodes, rfl, fun _ _ => rfl, fun _ _ => rfl, fun v => ⟨rfl, rfl, rfl, rfl, rfl, rfl, fun _ => rfl⟩,
      fun _ => rfl, fun h => absurd h hu⟩

/-- **C47.** On every graph with both depots the defaults are set without error, and: missing demand, collect,
service time and lower/upper window become 0, missing frequency 1, missing travel time 0; given values are kept, except
a positive demand at Source or Sink, which becomes 0 (and the upper window of the Sink, see C48); the arcs are the given
ones plus Source-Sink, which if new costs 0 for each of the `K` vehicle types; given (list) costs are kept. -/
theorem C47_defaults (K : Nat) (G : DiGraph) (hs : Node.source ∈ G.nodes) (ht : Node.sink ∈ G.nodes) :
    ∃ N, updateDummyAttributes K G = .ok N ∧ N.nodes = G.nodes ∧
      (∀ v ∈ G.nodes,
        (((G.nd v).demand = none → N.demand v = 0) ∧
         (∀ q, (G.nd v).demand = some q → (v = .source ∨ v = .sink) → 0 < q → N.demand v = 0) ∧
         (∀ q, (G.nd v).demand = some q → ¬ ((v = .source ∨ v = .sink) ∧ 0 < q) → N.demand v = q)) ∧
        (((G.nd v).collect = none → N.collect v = 0) ∧ ∀ q, (G.nd v).collect = some q → N.collect v = q) ∧
        (((G.nd v).serviceTime = none → N.service v = 0) ∧ ∀ q, (G.nd v).serviceTime = some q → N.service v = q) ∧
        (((G.nd v).lower = none → N.lower v = 0) ∧ ∀ q, (G.nd v).lower = some q → N.lower v = q) ∧
        (v ≠ .sink → ((G.nd v).upper = none → N.upper v = 0) ∧ ∀ q, (G.nd v).upper = some q → N.upper v = q) ∧
        (((G.nd v).frequency = none → N.freq v = 1) ∧ ∀ q, (G.nd v).frequency = some q → N.freq v = q) ∧
        N.request v = (G.nd v).request) ∧
      (∀ u v, v ∈ N.succ u ↔ v ∈ G.succ u ∨ (u = .source ∧ v = .sink)) ∧
      (∀ u v, v ∈ G.succ u →
        ((G.ed u v).time = none → N.time u v = 0) ∧ (∀ q, (G.ed u v).time = some q → N.time u v = q) ∧
        ∀ cs, (G.ed u v).cost = some (.list cs) → N.cost u v = cs) ∧
      (Node.sink ∉ G.succ .source → N.time .source .sink = 0 ∧ N.cost .source .sink = List.replicate K 0) := by
  obtain ⟨N, h1, h2, h3, h4, h5, h6, h7, _⟩ := updateDummy_eq K G hs ht
  obtain ⟨f1, f2, f3, f4, f5⟩ := addSourceSink_facts K (setZeroAttributes G)
  have hnd : ∀ v ∈ G.nodes, (G3 K G).nd v = zeroAttributes v (G.nd v) := by
    intro v hv
    show (addSourceSink K (setZeroAttributes G)).nd v = _
    rw [f2]
    simp [setZeroAttributes, hv]
  refine ⟨N, h1, h2, ?_, ?_, ?_, ?_⟩
  · intro v hv
    obtain ⟨k1, k2, k3, k4, k5, k6, k7⟩ := h6 v
    simp only [DiGraph.toNet, hnd v hv] at k1 k2 k3 k4 k5 k6 k7
    refine ⟨⟨?_, ?_, ?_⟩, ⟨?_, ?_⟩, ⟨?_, ?_⟩, ⟨?_, ?_⟩, ?_, ⟨?_, ?_⟩, ?_⟩
    · intro h; rw [k1]; simp [zeroAttributes, h]
    · intro q h hd hq
      rw [k1]
      have : v.isDepot = true := by rcases hd with rfl | rfl <;> rfl
      simp [zeroAttributes, h, this, hq]
    · intro q h hd
      rw [k1]
      simp only [zeroAttributes, h, Option.getD_some]
      rw [if_neg]
      rintro ⟨hd', hq⟩
      exact hd ⟨by cases v <;> simp_all [Node.isDepot], hq⟩
    · intro h; rw [k2]; simp [zeroAttributes, h]
    · intro q h; rw [k2]; simp [zeroAttributes, h]
    · intro h; rw [k3]; simp [zeroAttributes, h]
    · intro q h; rw [k3]; simp [zeroAttributes, h]
    · intro h; rw [k4]; simp [zeroAttributes, h]
    · intro q h; rw [k4]; simp [zeroAttributes, h]
    · intro hv'
      exact ⟨fun h => by rw [k7 hv']; simp [zeroAttributes, h], fun q h => by rw [k7 hv']; simp [zeroAttributes, h]⟩
    · intro h; rw [k5]; simp [zeroAttributes, h]
    · intro q h; rw [k5]; simp [zeroAttributes, h]
    · rw [k6]; rfl
  · intro u v
    rw [h3]
    exact f3 u v
  · intro u v hv
    have hed : (G3 K G).ed u v = { G.ed u v with time := some ((G.ed u v).time.getD 0) } := by
      show (setTimeToZeroIfMissing (addSourceSink K (setZeroAttributes G))).ed u v = _
      simp only [setTimeToZeroIfMissing]
      rw [if_pos (by simpa [DiGraph.hasEdge] using (f3 u v).2 (Or.inl hv)), f4 u v hv]
      rfl
    refine ⟨?_, ?_, ?_⟩
    · intro h; rw [h5]; simp [DiGraph.toNet, hed, h]
    · intro q h; rw [h5]; simp [DiGraph.toNet, hed, h]
    · intro cs h; rw [h4]; simp [DiGraph.toNet, hed, h]
  · intro h
    have hed : (G3 K G).ed .source .sink = { cost := some (.list (List.replicate K 0)), time := some 0 } := by
      show (setTimeToZeroIfMissing (addSourceSink K (setZeroAttributes G))).ed .source .sink = _
      simp only [setTimeToZeroIfMissing]
      rw [if_pos (by simpa [DiGraph.hasEdge] using (f3 .source .sink).2 (Or.inr ⟨rfl, rfl⟩)), f5 h]
      rfl
    refine ⟨?_, ?_⟩
    · rw [h5]; simp [DiGraph.toNet, hed]
    · rw [h4]; simp [DiGraph.toNet, hed]

/-- **C48.** If the Sink has no upper window, or 0, then its new upper window is the smallest value `U` such that every
vehicle that is at a predecessor `u` of the Sink no later than `upper u` can be back by `U`.  Otherwise it is kept. -/
theorem C48_sink_window (K : Nat) (G : DiGraph) (hs : Node.source ∈ G.nodes) (ht : Node.sink ∈ G.nodes)
    (hwf : G.WF) (hout : G.succ .sink = []) :
    ∃ N, updateDummyAttributes K G = .ok N ∧
      (∀ q, (G.nd .sink).upper = some q → q ≠ 0 → N.upper .sink = q) ∧
      (((G.nd .sink).upper = none ∨ (G.nd .sink).upper = some 0) →
        (∀ u t, Node.sink ∈ N.succ u → t ≤ N.upper u → t + N.service u + N.time u .sink ≤ N.upper .sink) ∧
        (∀ U, (∀ u t, Node.sink ∈ N.succ u → t ≤ N.upper u → t + N.service u + N.time u .sink ≤ U) →
          N.upper .sink ≤ U)) := by
  obtain ⟨N, h1, h2, h3, h4, h5, h6, h7, h8⟩ := updateDummy_eq K G hs ht
  obtain ⟨f1, f2, f3, f4, f5⟩ := addSourceSink_facts K (setZeroAttributes G)
  have hup : (G3 K G).toNet.upper .sink = (G.nd .sink).upper.getD 0 := by
    show ((addSourceSink K (setZeroAttributes G)).nd .sink).upper.getD 0 = _
    rw [f2]
    simp [setZeroAttributes, ht, zeroAttributes]
  have hno : ∀ u, Node.sink ∈ N.succ u → u ≠ .sink ∧ u ∈ G.nodes := by
    intro u hu
    rw [h3] at hu
    rcases (f3 u .sink).1 hu with h | ⟨rfl, _⟩
    · refine ⟨?_, (hwf.succ_mem u .sink h).1⟩
      rintro rfl
      have : Node.sink ∈ G.succ .sink := h
      rw [hout] at this
      simp at this
    · exact ⟨by simp, hs⟩
  refine ⟨N, h1, ?_, ?_⟩
  · intro q hq hq0
    rw [h7 (by rw [hup, hq]; exact hq0), hup, hq]
    rfl
  · intro hz
    have hz' : (G3 K G).toNet.upper .sink = 0 := by
      rw [hup]
      rcases hz with h | h <;> simp [h]
    obtain ⟨k1, k2⟩ := h8 hz'
    constructor
    · intro u t hu ht
      rcases k1 u hu (hno u hu).2 with h | h
      · linarith
      · exact absurd h (hno u hu).1
    · intro U hU
      obtain ⟨u, hu1, hu2, hu3⟩ := k2
      rcases hu3 with h | h
      · exact absurd h (hno u hu1).1
      · rw [← h]
        exact hU u (N.upper u) hu1 (le_refl _)

/-- A graph with one customer, upper window 5 and service time 2; travel times 3; nothing else given. -/
def exC48 : DiGraph where
  nodes := [.source, .cust 1, .sink]
  nd := fun v => if v = .cust 1 then { demand := some 4, upper := some 5, serviceTime := some 2 } else { demand := some 1 }
  succ := fun u => match u with | .source => [.cust 1] | .cust 1 => [.sink] | _ => []
  ed := fun u v => if u = .cust 1 then { cost := some (.list [1]), time := some 3 } else { cost := some (.list [1]) }

/-- C47 and C48 on `exC48`: the Sink window becomes 5+2+3 = 10, depot demands are dropped, Source-Sink is added. -/
example : Node.source ∈ exC48.nodes ∧ Node.sink ∈ exC48.nodes ∧ exC48.succ .sink = [] ∧
    (match updateDummyAttributes 1 exC48 with
     | .ok N => (N.upper .sink, N.demand .source, N.demand (.cust 1), N.time .source (.cust 1), N.succ .source)
     | .error _ => (0, 0, 0, 0, [])) = (10, 0, 4, 0, [.cust 1, .sink]) := by
  refine ⟨by decide, by decide, rfl, by decide +kernel⟩

/-- C48 speaks of the time at which the vehicle is back.  When a *lower* window of the Sink is given without an upper
one, the computed upper window can be below it and then no route is on time at all: lower 20, upper becomes 10. -/
theorem C48_lower_above_upper_example :
    (match updateDummyAttributes 1 { exC48 with nd := fun v => if v = .sink then { lower := some 20 } else exC48.nd v } with
     | .ok N => (N.lower .sink, N.upper .sink)
     | .error _ => (0, 0)) = (20, 10) := by decide +kernel

end Vrpy
