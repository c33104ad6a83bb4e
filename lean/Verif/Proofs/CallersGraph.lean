import Verif.Props.Resolve

/-!
# The graph that the caller gave, after it has been used
-/

namespace Vrpy

open Spec

/-- The network without some arcs. -/
def Net.drop (N : Net) (keep : Node → Node → Bool) : Net := { N with succ := fun u => (N.succ u).filter (keep u) }

theorem mem_drop {N : Net} {keep : Node → Node → Bool} {u v : Node} :
    v ∈ (N.drop keep).succ u ↔ v ∈ N.succ u ∧ keep u v = true := List.mem_filter

/-- Two graphs that differ in how the costs are written down. -/
structure SameButCosts (G H : DiGraph) : Prop where
  nodes : H.nodes = G.nodes
  succ : H.succ = G.succ
  nd : H.nd = G.nd
  time : ∀ u v, (H.ed u v).time = (G.ed u v).time
  cost : H.toNet.cost = G.toNet.cost

theorem readjust_congr {G H : DiGraph} (h : SameButCosts G H) :
    (match readjustSinkTimeWindows H with | .error e => Except.error e | .ok G' => .ok G'.toNet) =
    (match readjustSinkTimeWindows G with | .error e => Except.error e | .ok G' => .ok G'.toNet : Py Net) := by
  obtain ⟨h1, h2, h3, h4, h5⟩ := h
  have hp : H.preds .sink = G.preds .sink := by
    unfold DiGraph.preds DiGraph.hasEdge
    rw [h1, h2]
  have hnet : ∀ f : Node → NodeData, ({ H with nd := f } : DiGraph).toNet = ({ G with nd := f } : DiGraph).toNet := by
    intro f
    have hc : ({ H with nd := f } : DiGraph).toNet.cost = ({ G with nd := f } : DiGraph).toNet.cost := h5
    have ht : ({ H with nd := f } : DiGraph).toNet.time = ({ G with nd := f } : DiGraph).toNet.time := by
      funext u v
      exact congrArg (fun x => x.getD 0) (h4 u v)
    unfold DiGraph.toNet at hc ht ⊢
    simp only at hc ht ⊢
    rw [h1, h2, hc, ht]
  unfold readjustSinkTimeWindows
  rw [h3, hp]
  have hm : (G.preds .sink).map (fun u => (G.nd u).upper.getD 0 + (G.nd u).serviceTime.getD 0 + (H.ed u .sink).time.getD 0) =
      (G.preds .sink).map (fun u => (G.nd u).upper.getD 0 + (G.nd u).serviceTime.getD 0 + (G.ed u .sink).time.getD 0) :=
    List.map_congr_left (fun u _ => by rw [h4])
  rw [hm]
  by_cases h0 : (G.nd .sink).upper.getD 0 = 0
  · simp only [if_pos h0]
    cases (G.preds .sink).map (fun u => (G.nd u).upper.getD 0 + (G.nd u).serviceTime.getD 0 + (G.ed u .sink).time.getD 0) with
    | nil => rfl
    | cons x xs =>
      simp only [DiGraph.setNode, h3]
      exact congrArg Except.ok (hnet _)
  · simp only [if_neg h0]
    have e : ({ H with nd := G.nd } : DiGraph) = H := by rw [← h3]
    exact congrArg Except.ok (e ▸ hnet G.nd)

/-- Turning numbers into lists makes no difference to the network. -/
theorem dummy_format (K : Nat) (G : DiGraph) : updateDummyAttributes K (formatCosts G) = updateDummyAttributes K G := by
  unfold updateDummyAttributes
  refine readjust_congr ?_
  have hs : (addSourceSink K (setZeroAttributes (formatCosts G))).succ = (addSourceSink K (setZeroAttributes G)).succ := by
    unfold addSourceSink setZeroAttributes formatCosts DiGraph.hasEdge DiGraph.addEdge
    split <;> simp_all
  have hn : (addSourceSink K (setZeroAttributes (formatCosts G))).nodes = (addSourceSink K (setZeroAttributes G)).nodes := by
    unfold addSourceSink setZeroAttributes formatCosts DiGraph.hasEdge DiGraph.addEdge
    split <;> simp_all
  have hd : (addSourceSink K (setZeroAttributes (formatCosts G))).nd = (addSourceSink K (setZeroAttributes G)).nd := by
    unfold addSourceSink setZeroAttributes formatCosts DiGraph.hasEdge DiGraph.addEdge
    split <;> simp_all
  have ht : ∀ u v, ((formatCosts G).ed u v).time = (G.ed u v).time := by
    intro u v
    unfold formatCosts
    simp only
    split
    · split <;> rfl
    · rfl
  have hc : (formatCosts G).toNet.cost = G.toNet.cost := by
    funext u v
    unfold formatCosts DiGraph.toNet
    simp only
    by_cases he : G.hasEdge u v = true
    · simp only [if_pos he]
      cases hx : (G.ed u v).cost with
      | none => simp only [hx]
      | some x => cases x <;> simp only [hx]
    · simp only [if_neg he]
  have ht' : ∀ u v, ((addSourceSink K (setZeroAttributes (formatCosts G))).ed u v).time =
      ((addSourceSink K (setZeroAttributes G)).ed u v).time := by
    intro u v
    unfold addSourceSink setZeroAttributes
    by_cases he : G.hasEdge .source .sink = true
    · have he' : (formatCosts G).hasEdge .source .sink = true := he
      simp only [DiGraph.hasEdge] at he he'
      simp [DiGraph.hasEdge, he, he', ht]
    · have he' : ¬ (formatCosts G).hasEdge .source .sink = true := he
      simp only [DiGraph.hasEdge] at he he'
      simp only [DiGraph.hasEdge, he, he', DiGraph.addEdge, if_false, Bool.false_eq_true]
      split
      · rfl
      · exact ht u v
  have hc' : ∀ u v, (addSourceSink K (setZeroAttributes (formatCosts G))).toNet.cost u v =
      (addSourceSink K (setZeroAttributes G)).toNet.cost u v := by
    intro u v
    have := congrFun (congrFun hc u) v
    unfold addSourceSink setZeroAttributes
    by_cases he : G.hasEdge .source .sink = true
    · have he' : (formatCosts G).hasEdge .source .sink = true := he
      simp only [DiGraph.hasEdge] at he he'
      simpa [DiGraph.hasEdge, he, he', DiGraph.toNet] using this
    · have he' : ¬ (formatCosts G).hasEdge .source .sink = true := he
      simp only [DiGraph.hasEdge] at he he'
      simp only [DiGraph.hasEdge, he, he', DiGraph.addEdge, if_false, Bool.false_eq_true, DiGraph.toNet]
      by_cases huv : u = .source ∧ v = .sink
      · simp [huv]
      · simp only [huv, if_false]
        exact this
  generalize addSourceSink K (setZeroAttributes (formatCosts G)) = A at *
  generalize addSourceSink K (setZeroAttributes G) = B at *
  refine ⟨hn, hs, hd, ?_, ?_⟩
  · intro u v
    simp only [setTimeToZeroIfMissing, DiGraph.hasEdge, hs]
    by_cases he : v ∈ B.succ u
    · simp [he, ht']
    · simpa [he] using ht' u v
  · funext u v
    have := hc' u v
    simp only [setTimeToZeroIfMissing, DiGraph.hasEdge, hs, DiGraph.toNet] at this ⊢
    by_cases he : v ∈ B.succ u
    · simpa [he] using this
    · simpa [he] using this

/-- A complete graph passes the constructor unchanged. -/
theorem checkVrp_complete {G : DiGraph} (hwf : G.WF) (hs : Node.source ∈ G.nodes) (ht : Node.sink ∈ G.nodes)
    (h1 : ∀ u, Node.source ∉ G.succ u) (h2 : ∀ v, v ∉ G.succ .sink)
    (h3 : ∀ n, Node.cust n ∈ G.nodes → Node.cust n ∈ G.succ .source ∧ Node.sink ∈ G.succ (.cust n))
    (hcust : ∃ n, Node.cust n ∈ G.nodes) (hc : ∀ u v, v ∈ G.succ u → (G.ed u v).cost ≠ none) : checkVrp G = .ok G := by
  have hp : G.preds .source = [] := by
    rw [List.eq_nil_iff_forall_not_mem]
    intro u hu
    exact h1 u ((DiGraph.mem_preds G hwf u .source).1 hu)
  have hq : G.succ .sink = [] := List.eq_nil_iff_forall_not_mem.2 h2
  have hd1 : checkDepot G .source = .ok () := by simp [checkDepot, hs, ht, hp, hq]
  have hd2 : checkDepot G .sink = .ok () := by simp [checkDepot, hs, ht, hp, hq]
  have hfold : ∀ l : List Node, (∀ v ∈ l, v ∈ G.nodes) → l.foldl completeNode G = G := by
    intro l
    induction l with
    | nil => intro _; rfl
    | cons v l ih =>
      intro hl
      have : completeNode G v = G := by
        cases v with
        | source => simp [completeNode, Node.isDepot]
        | sink => simp [completeNode, Node.isDepot]
        | cust n =>
          obtain ⟨k1, k2⟩ := h3 n (hl _ (by simp))
          have k3 := (DiGraph.mem_preds G hwf (.cust n) .sink).2 k2
          simp [completeNode, Node.isDepot, k1, k3]
      rw [List.foldl_cons, this]
      exact ih (fun v hv => hl v (by simp [hv]))
  have hpath : G.hasPath .source .sink = true := by
    obtain ⟨n, hn⟩ := hcust
    obtain ⟨k1, k2⟩ := h3 n hn
    exact (DiGraph.hasPath_iff G hwf _ _).2 ((Relation.ReflTransGen.refl.tail k1).tail k2)
  have hcosts : (G.edges.any fun e => (G.ed e.1 e.2).cost.isNone) = false := by
    rw [List.any_eq_false]
    rintro ⟨u, v⟩ he
    have := hc u v ((DiGraph.mem_edges G hwf u v).1 he)
    cases hx : (G.ed u v).cost with
    | none => exact absurd hx this
    | some x => simp
  unfold checkVrp
  rw [hd1, hd2, hfold _ (fun v hv => hv)]
  simp [bind, Except.bind, hpath, hcosts, pure, Except.pure]

/-- The demands of the depots are never positive once the defaults are set. -/
theorem dummy_depots {K : Nat} {G : DiGraph} {N : Net} (hs : Node.source ∈ G.nodes) (ht : Node.sink ∈ G.nodes)
    (h : updateDummyAttributes K G = .ok N) : N.demand .source ≤ 0 ∧ N.demand .sink ≤ 0 := by
  obtain ⟨N', d1, d2, d3, _⟩ := C47_defaults K G hs ht
  rw [h] at d1
  cases d1
  have key : ∀ v, v ∈ G.nodes → v = .source ∨ v = .sink → N.demand v ≤ 0 := by
    intro v hv hd
    obtain ⟨⟨e1, e2, e3⟩, _⟩ := d3 v hv
    cases hq : (G.nd v).demand with
    | none => rw [e1 hq]
    | some q =>
      by_cases h0 : 0 < q
      · rw [e2 q hq hd h0]
      · rw [e3 q hq (fun hf => h0 hf.2)]
        exact not_lt.1 h0
  exact ⟨key _ hs (Or.inl rfl), key _ ht (Or.inr rfl)⟩

/-- If Sink closes at 0 after the defaults are set, then no vehicle can be back later. -/
theorem sink_closes {K : Nat} {G : DiGraph} {N : Net} (hwf : G.WF) (hs : Node.source ∈ G.nodes) (ht : Node.sink ∈ G.nodes)
    (hend : ∀ v, v ∉ G.succ .sink) (h : updateDummyAttributes K G = .ok N) (h0 : N.upper .sink = 0) :
    ∀ u, Node.sink ∈ N.succ u → N.upper u + N.service u + N.time u .sink ≤ 0 := by
  intro u hu
  obtain ⟨N4, w1, w2, w3⟩ := C48_sink_window K G hs ht hwf (List.eq_nil_iff_forall_not_mem.2 hend)
  rw [h] at w1
  cases w1
  have h00 : (G.nd .sink).upper = none ∨ (G.nd .sink).upper = some 0 := by
    cases hup : (G.nd .sink).upper with
    | none => exact Or.inl rfl
    | some q =>
      by_cases hq : q = 0
      · rw [hq]; exact Or.inr rfl
      · exact absurd ((w2 q hup hq).symm.trans h0) hq
  have := (w3 h00).1 u (N.upper u) hu (le_refl _)
  rwa [h0] at this

/-- What is left of a graph `G` (as completed by the constructor) after it has been used: all attributes are there, and some
arcs are gone that are too heavy for the fleet `caps`. -/
structure Settled (G : DiGraph) (caps : List ℚ) (K : Nat) (B : Net) (keep : Node → Node → Bool) (X : DiGraph) : Prop where
  dummy : updateDummyAttributes K G = .ok B
  types : ∀ u v, v ∈ G.succ u → (G.toNet.cost u v).length = K
  graph : X = (B.drop keep).toDiGraph
  source : ∀ v ∈ B.succ .source, keep .source v = true
  sink : ∀ u, Node.sink ∈ B.succ u → keep u .sink = true
  heavy : ∀ u v, keep u v = false → caps ≠ [] ∧ ∀ c ∈ caps, c < B.demand u + B.demand v

/-- The graph as completed by the constructor. -/
structure Completed (G : DiGraph) : Prop where
  wf : G.WF
  source : Node.source ∈ G.nodes
  sink : Node.sink ∈ G.nodes
  noIn : ∀ u, Node.source ∉ G.succ u
  noOut : ∀ v, v ∉ G.succ .sink
  depots : ∀ n, Node.cust n ∈ G.nodes → Node.cust n ∈ G.succ .source ∧ Node.sink ∈ G.succ (.cust n)
  customer : ∃ n, Node.cust n ∈ G.nodes
  costs : ∀ u v, v ∈ G.succ u → (G.ed u v).cost ≠ none

section settled

variable {G X : DiGraph} {caps : List ℚ} {K : Nat} {B : Net} {keep : Node → Node → Bool}

theorem Settled.wf (S : Settled G caps K B keep X) (hG : Completed G) : WellFormed B ∧ B.nodes = G.nodes :=
  updateDummy_wf hG.wf hG.source hG.sink hG.noIn hG.noOut S.dummy

theorem Settled.mem (S : Settled G caps K B keep X) (hG : Completed G) {u v : Node} :
    v ∈ B.succ u ↔ v ∈ G.succ u ∨ (u = .source ∧ v = .sink) := by
  obtain ⟨N', d1, _, _, d4, _⟩ := C47_defaults K G hG.source hG.sink
  rw [S.dummy] at d1
  cases d1
  exact d4 u v

theorem Settled.dropWf (S : Settled G caps K B keep X) (hG : Completed G) : WellFormed (B.drop keep) :=
  wf_of_sublists (S.wf hG).1 rfl (fun _ => List.filter_sublist)

theorem Settled.completed (S : Settled G caps K B keep X) (hG : Completed G) : Completed X where
  wf := by rw [S.graph]; exact toDiGraph_wf (S.dropWf hG)
  source := by rw [S.graph]; exact (S.dropWf hG).source_mem
  sink := by rw [S.graph]; exact (S.dropWf hG).sink_mem
  noIn := by rw [S.graph]; exact (S.dropWf hG).no_into_source
  noOut := by
    rw [S.graph]
    intro v hv
    have hv : v ∈ (B.drop keep).succ .sink := hv
    rw [(S.dropWf hG).no_out_of_sink] at hv
    simp at hv
  depots := by
    rw [S.graph]
    intro n hn
    have hn : Node.cust n ∈ G.nodes := by rw [← (S.wf hG).2]; exact hn
    obtain ⟨k1, k2⟩ := hG.depots n hn
    have k1 := (S.mem hG).2 (Or.inl k1)
    have k2 := (S.mem hG).2 (Or.inl k2)
    exact ⟨mem_drop.2 ⟨k1, S.source _ k1⟩, mem_drop.2 ⟨k2, S.sink _ k2⟩⟩
  customer := by
    rw [S.graph]
    obtain ⟨n, hn⟩ := hG.customer
    exact ⟨n, by show _ ∈ B.nodes; rw [(S.wf hG).2]; exact hn⟩
  costs := by rw [S.graph]; intro u v _ h; cases h

/-- Setting the defaults again changes nothing. -/
theorem Settled.again {K' : Nat} {N : Net} (S : Settled G caps K B keep X) (hG : Completed G)
    (h : updateDummyAttributes K' X = .ok N) : N = B.drop keep := by
  rw [S.graph] at h
  obtain ⟨hwf, hn⟩ := S.wf hG
  have hdir : Node.sink ∈ B.succ .source := (S.mem hG).2 (Or.inr ⟨rfl, rfl⟩)
  have hdem := dummy_depots hG.source hG.sink S.dummy
  refine updateDummy_again (N := B.drop keep) hdem (mem_drop.2 ⟨hdir, S.source _ hdir⟩) ?_ h
  intro h0
  have h0 : B.upper .sink = 0 := h0
  refine ⟨fun u hu => sink_closes hG.wf hG.source hG.sink hG.noOut S.dummy h0 u (mem_drop.1 hu).1, ?_⟩
  obtain ⟨u, hu, hu', hu0⟩ := dummy_sink (fun v => by rw [hwf.no_out_of_sink]; simp) S.dummy h0
  exact ⟨u, hu, mem_drop.2 ⟨hu', S.sink u hu'⟩, hu0⟩

end settled

/-- Problems that change the graph only by removing arcs too heavy for the fleet `caps`. -/
structure Plain (caps : List ℚ) (P : Vrp) : Prop where
  timeWindows : P.timeWindows = false
  fixedCost : P.fixedCost = .one 0 ∨ P.fixedCost = .many []
  useAll : P.useAllVehicles = false
  preassignments : P.preassignments = []
  capacity : userCapacities P.loadCapacity = [] ∨
    caps ≠ [] ∧ ∀ c ∈ caps, ∃ c' ∈ userCapacities P.loadCapacity, c ≤ c'

theorem prepared_fixedCost {P : Vrp} {R Q : List (List Node)} (h : P.fixedCost = .one 0 ∨ P.fixedCost = .many []) :
    (P.prepared R Q).fixedCost = P.fixedCost ∧ (P.prepared R Q).fixedCost.toList = [] := by
  unfold Vrp.prepared
  cases hm : P.mixedFleet with
  | true => rcases h with hf | hf <;> simp [hf, Arg.toList]
  | false => rcases h with hf | hf <;> simp [hf, Arg.toList, Vrp.format, Arg.wrap]

/-- Formatting the costs makes no difference to the network. -/
theorem dummy_prepared {K : Nat} {P : Vrp} {R Q : List (List Node)} :
    updateDummyAttributes K (P.prepared R Q).G = updateDummyAttributes K P.G := by
  unfold Vrp.prepared
  cases hm : P.mixedFleet with
  | true => simp
  | false => simpa [Vrp.format] using dummy_format K P.G

theorem plain_after {dist : DistOracle} {strategy : String} {cspy : Bool} {R : List (List Node)} {P P' : Vrp} {caps : List ℚ}
    (hP : Plain caps P) (h : P.startSolve dist strategy cspy R [] = .ok P') : Plain caps P' := by
  obtain ⟨G1, N, N1, N2, N3, T⟩ := startSolve_prepared h
  obtain ⟨f1, f2, f3, f4, f5, f6, f7, f8, f9, f10, f11, f12, f13, f14⟩ := prepared_fields (P := P) (R := R) (Q := [])
  obtain ⟨hcaps, _⟩ := prepared_capacities T
  have hres := T.result
  have hlc : P'.loadCapacity = (P.prepared R []).loadCapacity := by rw [hres]
  have hl0 : ¬ (P.prepared R []).loadCapacity = .many [] := by
    intro hl
    have := T.pruned
    simp [pruneStep, hl] at this
  have huc : userCapacities P'.loadCapacity = userCapacities P.loadCapacity := by
    rw [hlc]
    cases hm : P.mixedFleet with
    | true => simp [Vrp.prepared, hm]
    | false =>
      have : (P.prepared R []).loadCapacity = P.loadCapacity.wrap PyVal.truthy := by simp [Vrp.prepared, hm, Vrp.format]
      rw [this]
      cases hl : P.loadCapacity with
      | many xs => rfl
      | one x =>
        cases x with
        | none => simp [Arg.wrap, PyVal.truthy]
        | int z =>
          by_cases hz : z = 0
          · simp [Arg.wrap, PyVal.truthy, hz]
          · simp [Arg.wrap, PyVal.truthy, hz, userCapacities]
        | other t =>
          cases t with
          | false => simp [Arg.wrap, PyVal.truthy]
          | true =>
            exfalso
            have hpos := ((C44_accepts_exactly _ _ _ _ _ _ _ _ _).1 T.args).2.1
            rw [this, hl] at hpos
            obtain ⟨z, hz, _⟩ := hpos (.other true) (by simp [Arg.wrap, PyVal.truthy, Arg.toList])
            cases hz
  refine ⟨?_, ?_, ?_, ?_, ?_⟩
  · rw [hres]; exact f5.trans hP.timeWindows
  · have : P'.fixedCost = P.fixedCost := by rw [hres]; exact (prepared_fixedCost hP.fixedCost).1
    rw [this]
    exact hP.fixedCost
  · rw [hres]; exact f11.trans hP.useAll
  · rw [hres]
    show (P.prepared R []).preassignments = []
    rw [f1, if_neg (by simp)]
    exact hP.preassignments
  · rw [huc]
    exact hP.capacity

theorem removeEdges_drop (N : Net) (es : List (Node × Node)) :
    N.removeEdges es = N.drop (fun u v => decide ((u, v) ∉ es)) := rfl

theorem drop_drop (N : Net) (k1 k2 : Node → Node → Bool) : (N.drop k1).drop k2 = N.drop (fun u v => k1 u v && k2 u v) := by
  unfold Net.drop
  simp only [List.filter_filter]
  congr 1
  funext u
  congr 1
  funext v
  rw [Bool.and_comm]

theorem drop_true (N : Net) : N.drop (fun _ _ => true) = N := by
  unfold Net.drop
  simp

/-- What the pre-processing of a plain problem does to a network with all its attributes. -/
theorem plain_step {dist : DistOracle} {strategy : String} {cspy : Bool} {R : List (List Node)} {P P' : Vrp} {caps : List ℚ}
    {G1 : DiGraph} {N N1 N2 N3 : Net} (hP : Plain caps P) (hs : N.demand .source ≤ 0) (ht : N.demand .sink ≤ 0)
    (hwf : WellFormed N) (T : PreSolved dist strategy cspy (P.prepared R []) P' G1 N N1 N2 N3) :
    ∃ keep, P'.G = (N.drop keep).toDiGraph ∧ (∀ v ∈ N.succ .source, keep .source v = true) ∧
      (∀ u, Node.sink ∈ N.succ u → keep u .sink = true) ∧
      ∀ u v, keep u v = false → caps ≠ [] ∧ ∀ c ∈ caps, c < N.demand u + N.demand v := by
  obtain ⟨f1, f2, f3, f4, f5, f6, f7, f8, f9, f10, f11, f12, f13, f14⟩ := prepared_fields (P := P) (R := R) (Q := [])
  obtain ⟨hcaps, _⟩ := prepared_capacities T
  have hG : P'.G = N3.toDiGraph := by rw [T.result]
  have hlock := T.locked
  rw [f1, if_neg (by simp), hP.preassignments] at hlock
  simp only [lockStep, ne_eq, not_true_eq_false, if_false, Except.ok.injEq] at hlock
  subst hlock
  have hemp := T.emptyRoute
  rw [f11, hP.useAll] at hemp
  simp only [emptyRouteStep, Bool.false_eq_true, if_false, Except.ok.injEq] at hemp
  subst hemp
  have hprune := T.pruned
  unfold pruneStep at hprune
  split at hprune
  · cases hprune
  rw [hcaps, f5, hP.timeWindows] at hprune
  have hfeas := T.feasible
  rw [hcaps] at hfeas
  cases hcs : userCapacities P.loadCapacity with
  | nil =>
    rw [hcs] at hprune
    simp only [pruneGraph, Bool.false_eq_true, if_false, Except.ok.injEq] at hprune
    subst hprune
    exact ⟨fun _ _ => true, by rw [hG, drop_true], fun _ _ => rfl, fun _ _ => rfl, fun _ _ h => (by cases h)⟩
  | cons c cs =>
    rw [hcs] at hprune hfeas
    simp only [pruneGraph, Bool.false_eq_true, if_false, Except.ok.injEq, removeInfeasibleArcsCapacities,
      removeEdges_drop] at hprune
    have hdem : ∀ v ∈ N.nodes, N.demand v ≤ maxOf c cs := by
      intro v hv
      have h1 : checkDemands (c :: cs) N = .ok () := by
        unfold checkFeasibility at hfeas
        exact (py_seq_ok.1 hfeas).1
      unfold checkDemands at h1
      have := (forM_ok_iff _ _).1 h1 v hv
      by_contra hlt
      rw [if_pos (by exact not_le.1 hlt)] at this
      cases this
    refine ⟨_, by rw [hG, ← hprune], ?_, ?_, ?_⟩
    · intro v hv
      refine decide_eq_true (fun hm => ?_)
      have h1 := of_decide_eq_true (List.mem_filter.1 hm).2
      have h2 := hdem v (hwf.edge_mem _ _ hv).2
      simp only at h1
      linarith
    · intro u hu
      refine decide_eq_true (fun hm => ?_)
      have h1 := of_decide_eq_true (List.mem_filter.1 hm).2
      have h2 := hdem u (hwf.edge_mem _ _ hu).1
      simp only at h1
      linarith
    · intro u v huv
      have hm := of_decide_eq_false huv
      rw [not_not] at hm
      have h1 : N.demand u + N.demand v > maxOf c cs := of_decide_eq_true (List.mem_filter.1 hm).2
      rcases hP.capacity with h0 | ⟨h0, h2⟩
      · rw [hcs] at h0; cases h0
      · refine ⟨h0, fun x hx => ?_⟩
        obtain ⟨y, hy, hxy⟩ := h2 x hx
        rw [hcs] at hy
        have : y ≤ maxOf c cs := by
          rcases List.mem_cons.1 hy with rfl | hy
          · exact (le_foldl_max _ _).1
          · exact (le_foldl_max _ _).2 _ hy
        linarith

/-- The number of vehicle types is the number of costs per arc. -/
theorem types_costs {dist : DistOracle} {strategy : String} {cspy : Bool} {R Q : List (List Node)} {P P' : Vrp}
    {G1 : DiGraph} {N N1 N2 N3 : Net} (hG : P.G.WF) (hdoc : CostsAsDocumented P)
    (T : PreSolved dist strategy cspy (P.prepared R Q) P' G1 N N1 N2 N3) :
    ∀ u v, v ∈ P.G.succ u → (P.G.toNet.cost u v).length = P'.vehicleTypes.getD 0 := by
  intro u v hv
  obtain ⟨f1, f2, f3, f4, f5, f6, f7, f8, f9, f10, f11, f12, f13, f14⟩ := prepared_fields (P := P) (R := R) (Q := Q)
  cases hm : P.mixedFleet with
  | true =>
    have hargs := ((C44_accepts_exactly _ _ _ _ _ _ _ _ _).1 T.args).2.2.2.2 (by rw [f9, hm])
    have hPG : (P.prepared R Q).G = P.G := by simp [Vrp.prepared, hm]
    rw [hPG] at hargs
    obtain ⟨cs, h1, h2⟩ := hargs.2 (u, v) ((DiGraph.mem_edges _ hG u v).2 hv)
    simp only at h1
    rw [← h2]
    simp [DiGraph.toNet, h1]
  | false =>
    have hvt := T.vt
    simp only [Vrp.typesStep, f9, hm, Bool.false_eq_true, if_false, Except.ok.injEq] at hvt
    rw [← hvt]
    obtain ⟨c, hc | hc⟩ := hdoc hm u v hv <;> simp [DiGraph.toNet, hc]

theorem plain_fixed {dist : DistOracle} {strategy : String} {cspy : Bool} {R Q : List (List Node)} {P P' : Vrp}
    {G1 : DiGraph} {N N1 N2 N3 : Net} (hf : P.fixedCost = .one 0 ∨ P.fixedCost = .many [])
    (T : PreSolved dist strategy cspy (P.prepared R Q) P' G1 N N1 N2 N3) :
    updateDummyAttributes (P'.vehicleTypes.getD 0) P.G = .ok N := by
  have hfix := T.fixed
  rw [(prepared_fixedCost hf).2] at hfix
  simp only [fixedStep, ne_eq, not_true_eq_false, if_false, Except.ok.injEq] at hfix
  subst hfix
  rw [← T.dummy, dummy_prepared]

/-- The first time a graph is used for a plain problem. -/
theorem settled_first {dist : DistOracle} {strategy : String} {cspy : Bool} {R : List (List Node)} {P P' : Vrp} {caps : List ℚ}
    (hG : Completed P.G) (hdoc : CostsAsDocumented P) (hP : Plain caps P)
    (h : P.startSolve dist strategy cspy R [] = .ok P') : ∃ K B keep, Settled P.G caps K B keep P'.G := by
  obtain ⟨G1, N, N1, N2, N3, T⟩ := startSolve_prepared h
  have hN := plain_fixed hP.fixedCost T
  obtain ⟨hwf, _⟩ := updateDummy_wf hG.wf hG.source hG.sink hG.noIn hG.noOut hN
  obtain ⟨d1, d2⟩ := dummy_depots hG.source hG.sink hN
  obtain ⟨keep, k1, k2, k3, k4⟩ := plain_step hP d1 d2 hwf T
  exact ⟨_, N, keep, hN, types_costs hG.wf hdoc T, k1, k2, k3, k4⟩

/-- Using a graph for one more plain problem. -/
theorem settled_next {dist : DistOracle} {strategy : String} {cspy : Bool} {R : List (List Node)} {P P' : Vrp} {caps : List ℚ}
    {G : DiGraph} {K : Nat} {B : Net} {keep : Node → Node → Bool} (hG : Completed G) (S : Settled G caps K B keep P.G)
    (hP : Plain caps P) (h : P.startSolve dist strategy cspy R [] = .ok P') : ∃ keep', Settled G caps K B keep' P'.G := by
  obtain ⟨G1, N, N1, N2, N3, T⟩ := startSolve_prepared h
  have hN := S.again hG (plain_fixed hP.fixedCost T)
  subst hN
  obtain ⟨d1, d2⟩ := dummy_depots hG.source hG.sink S.dummy
  obtain ⟨keep', k1, k2, k3, k4⟩ := plain_step (N := B.drop keep) hP d1 d2 (S.dropWf hG) T
  rw [drop_drop] at k1
  refine ⟨_, S.dummy, S.types, k1, ?_, ?_, ?_⟩
  · intro v hv
    simp [S.source v hv, k2 v (mem_drop.2 ⟨hv, S.source v hv⟩)]
  · intro u hu
    simp [S.sink u hu, k3 u (mem_drop.2 ⟨hu, S.sink u hu⟩)]
  · intro u v huv
    rcases Bool.and_eq_false_iff.1 huv with huv | huv
    · exact S.heavy u v huv
    · exact k4 u v huv

/-- Two folds side by side. -/
theorem foldlM_rel {α β : Type} {f : β → α → Py β} {R : β → β → Prop} (l : List α) (b1 b2 c1 c2 : β) (h0 : R b1 b2)
    (hstep : ∀ x1 x2 a y1 y2, a ∈ l → R x1 x2 → f x1 a = .ok y1 → f x2 a = .ok y2 → R y1 y2)
    (h1 : l.foldlM f b1 = .ok c1) (h2 : l.foldlM f b2 = .ok c2) : R c1 c2 := by
  induction l generalizing b1 b2 with
  | nil =>
    simp only [List.foldlM_nil, pure, Except.pure, Except.ok.injEq] at h1 h2
    subst h1 h2
    exact h0
  | cons a l ih =>
    simp only [List.foldlM_cons, py_bind_ok] at h1 h2
    obtain ⟨y1, hy1, h1⟩ := h1
    obtain ⟨y2, hy2, h2⟩ := h2
    exact ih y1 y2 (hstep b1 b2 a y1 y2 (by simp) h0 hy1 hy2) (fun x1 x2 a y1 y2 ha => hstep x1 x2 a y1 y2 (by simp [ha])) h1 h2

/-- One network is the other without some arcs. -/
structure DroppedFrom (d : Node → ℚ) (keep : Node → Node → Bool) (M N : Net) : Prop where
  eq : M = N.drop keep
  demand : N.demand = d
  closed : ∀ u v, v ∈ N.succ u → u ∈ N.nodes

theorem zeroCost_dropped {K : Nat} {d : Node → ℚ} {keep : Node → Node → Bool} {M N M' N' : Net} {e : Node × Node}
    (h : DroppedFrom d keep M N) (h1 : zeroCost K M e = .ok M') (h2 : zeroCost K N e = .ok N') : DroppedFrom d keep M' N' := by
  obtain ⟨rfl, hd, hcl⟩ := h
  unfold zeroCost at h1 h2
  split at h1
  · split at h1
    · cases h1
    · split at h2
      · split at h2
        · cases h2
        · cases h1; cases h2
          exact ⟨rfl, hd, hcl⟩
      · cases h2
  · cases h1

theorem lockRoute_dropped {K : Nat} {d : Node → ℚ} {keep : Node → Node → Bool} {M N M' N' : Net} {r : List Node}
    (h : DroppedFrom d keep M N) (h1 : lockRoute K M r = .ok M') (h2 : lockRoute K N r = .ok N') : DroppedFrom d keep M' N' := by
  unfold lockRoute at h1 h2
  split at h1
  · cases h1
  rename_i hr
  rw [if_neg hr] at h2
  split at h1
  · rename_i hc
    rw [if_pos hc] at h2
    cases h1; cases h2
    obtain ⟨rfl, hd, hcl⟩ := h
    refine ⟨?_, hd, ?_⟩
    · unfold Net.removeNodes Net.drop
      simp only
      congr 1
      funext u
      by_cases hu : u ∈ interior r
      · simp [hu]
      · simp only [hu, if_false, List.filter_filter]
        congr 1
        funext v
        rw [Bool.and_comm]
    · intro u v hv
      obtain ⟨k1, k2, k3⟩ := mem_removeNodes_succ.1 hv
      exact List.mem_filter.2 ⟨hcl u v k1, by simpa using k2⟩
  · rename_i hc
    rw [if_neg hc] at h2
    exact foldlM_rel (f := zeroCost K) (R := DroppedFrom d keep) _ _ _ _ _ h (fun x1 x2 a y1 y2 _ => zeroCost_dropped) h1 h2

theorem lockStep_dropped {K : Nat} {d : Node → ℚ} {keep : Node → Node → Bool} {M N M' N' : Net} {Q : List (List Node)}
    (h : DroppedFrom d keep M N) (h1 : lockStep K Q M = .ok M') (h2 : lockStep K Q N = .ok N') : DroppedFrom d keep M' N' := by
  unfold lockStep at h1 h2
  split at h1
  · rename_i hq
    rw [if_pos hq] at h2
    split at h1
    · cases h1
    split at h2
    · cases h2
    exact foldlM_rel (f := lockRoute K) (R := DroppedFrom d keep) _ _ _ _ _ h (fun x1 x2 a y1 y2 _ => lockRoute_dropped) h1 h2
  · rename_i hq
    rw [if_neg hq] at h2
    cases h1; cases h2
    exact h

/-- Arcs that are too heavy are removed anyway. -/
theorem prune_dropped {keep : Node → Node → Bool} {M N : Net} {d : Node → ℚ} {caps : List ℚ}
    (h : DroppedFrom d keep M N) (hheavy : ∀ u v, keep u v = false → caps ≠ [] ∧ ∀ c ∈ caps, c < d u + d v) (tw : Bool) :
    pruneGraph M caps tw = pruneGraph N caps tw := by
  obtain ⟨rfl, rfl, hcl⟩ := h
  cases caps with
  | nil =>
    have hk : keep = fun _ _ => true := by
      funext u v
      cases hk : keep u v with
      | true => rfl
      | false => exact absurd rfl (hheavy u v hk).1
    rw [hk, drop_true]
  | cons c cs =>
    have key : removeInfeasibleArcsCapacities (N.drop keep) (maxOf c cs) = removeInfeasibleArcsCapacities N (maxOf c cs) := by
      unfold removeInfeasibleArcsCapacities
      rw [removeEdges_drop, removeEdges_drop, drop_drop]
      unfold Net.drop
      congr 1
      funext u
      refine List.filter_congr (fun v hv => ?_)
      show (keep u v && decide ((u, v) ∉ List.filter (fun e => decide (N.demand e.1 + N.demand e.2 > maxOf c cs)) (N.drop keep).edges)) =
        decide ((u, v) ∉ List.filter (fun e => decide (N.demand e.1 + N.demand e.2 > maxOf c cs)) N.edges)
      have hu := hcl u v hv
      have m1 : (u, v) ∈ N.edges := by
        unfold Net.edges
        simp only [List.mem_flatMap, List.mem_map, Prod.mk.injEq]
        exact ⟨u, hu, v, hv, rfl, rfl⟩
      by_cases hw : N.demand u + N.demand v > maxOf c cs
      · have e1 : decide ((u, v) ∉ List.filter (fun e => decide (N.demand e.1 + N.demand e.2 > maxOf c cs)) N.edges) = false :=
          decide_eq_false (fun hf => hf (List.mem_filter.2 ⟨m1, decide_eq_true hw⟩))
        rw [e1]
        cases hk : keep u v with
        | false => rfl
        | true =>
          simp only [Bool.true_and]
          refine decide_eq_false (fun hf => hf (List.mem_filter.2 ⟨?_, decide_eq_true hw⟩))
          unfold Net.edges
          simp only [List.mem_flatMap, List.mem_map, Prod.mk.injEq]
          exact ⟨u, hu, v, List.mem_filter.2 ⟨hv, hk⟩, rfl, rfl⟩
      · have hk : keep u v = true := by
          by_contra hk
          have := (hheavy u v (by simpa using hk)).2 _ (foldl_max_mem c cs)
          exact hw this
        rw [hk, Bool.true_and]
        have e1 : ((u, v) ∉ List.filter (fun e => decide (N.demand e.1 + N.demand e.2 > maxOf c cs)) N.edges) :=
          fun hf => hw (of_decide_eq_true (List.mem_filter.1 hf).2)
        rw [decide_eq_true e1]
        exact decide_eq_true (fun hf => hw (of_decide_eq_true (List.mem_filter.1 hf).2))
    simp only [pruneGraph, key]

theorem prepared_with {P : Vrp} {R Q : List (List Node)} {X : DiGraph} (hX : formatCosts X = X) :
    ({ P with G := X } : Vrp).prepared R Q = { P.prepared R Q with G := X } := by
  unfold Vrp.prepared
  cases hm : P.mixedFleet with
  | true => simp
  | false => simp [Vrp.format, hX]

/-- A problem posed on a used graph is the problem posed on the graph itself. -/
theorem settled_same {d1 d2 : DistOracle} {s1 s2 : String} {c1 c2 : Bool} {R Q : List (List Node)} {P P1 P2 : Vrp} {X : DiGraph}
    {K : Nat} {B : Net} {keep : Node → Node → Bool} (hG : Completed P.G) (hdoc : CostsAsDocumented P)
    (hf : P.fixedCost = .one 0 ∨ P.fixedCost = .many [])
    (S : Settled P.G (userCapacities P.loadCapacity) K B keep X)
    (h1 : P.startSolve d1 s1 c1 R Q = .ok P1) (h2 : ({ P with G := X } : Vrp).startSolve d2 s2 c2 R Q = .ok P2) :
    P2 = { P1 with H := P2.H } := by
  obtain ⟨G1, N, N1, N2, N3, T⟩ := startSolve_prepared h1
  obtain ⟨G1', N', N1', N2', N3', U⟩ := startSolve_prepared h2
  obtain ⟨hcaps, _⟩ := prepared_capacities T
  have hN := plain_fixed hf T
  have hN' := S.again hG (plain_fixed (P := { P with G := X }) hf U)
  have hK : P1.vehicleTypes.getD 0 = K := by
    obtain ⟨n, hn⟩ := hG.customer
    have harc := (hG.depots n hn).1
    rw [← types_costs hG.wf hdoc T _ _ harc]
    exact S.types _ _ harc
  rw [hK, S.dummy] at hN
  cases hN
  have hX : formatCosts X = X := by rw [S.graph, formatCosts_again]
  rw [prepared_with hX] at U
  generalize P.prepared R Q = Y at *
  have hvt : P2.vehicleTypes = P1.vehicleTypes := by
    have h : Y.typesStep = .ok P2.vehicleTypes := U.vt
    rw [T.vt] at h
    exact (Except.ok.inj h).symm
  have hl2 : lockStep (P1.vehicleTypes.getD 0) Y.preassignments (B.drop keep) = .ok N1' := by
    have := U.locked
    rw [hN', hvt] at this
    exact this
  have hdrop : DroppedFrom B.demand keep N1' N1 :=
    lockStep_dropped ⟨rfl, rfl, fun u v hv => ((S.wf hG).1.edge_mem u v hv).1⟩ hl2 T.locked
  have hN2 : N2' = N2 := by
    have a1 := T.pruned
    have a2 : pruneStep Y.loadCapacity Y.timeWindows N1' = .ok N2' := U.pruned
    unfold pruneStep at a1 a2
    split at a1
    · cases a1
    · rename_i hl
      rw [if_neg hl, hcaps, prune_dropped hdrop S.heavy, ← hcaps, a1] at a2
      exact (Except.ok.inj a2).symm
  subst hN2
  have hN3 : N3' = N3 := by
    have h : emptyRouteStep Y.useAllVehicles N2' = .ok N3' := U.emptyRoute
    exact (Except.ok.inj (T.emptyRoute.symm.trans h)).symm
  subst hN3
  have hst : P2.numStops = P1.numStops := by
    have h : stopsStep Y N2' = .ok P2.numStops := U.stops
    exact (Except.ok.inj (T.stops.symm.trans h)).symm
  have hnodes : N1'.nodes = N1.nodes := by rw [hdrop.eq]; rfl
  have e := U.result
  have e' := T.result
  have eH : P2.H = some N' := by rw [e]
  rw [eH]
  rw [hvt, hst, hnodes] at e
  generalize P1.vehicleTypes = k at *
  generalize P1.numStops = n at *
  rw [e, e']

end Vrpy
