import Verif.Model.Object
import Verif.Props.Constructor
import Verif.Props.CostVectors
import Verif.Props.Prune
import Verif.Props.Stops
import Verif.Props.InitialRoutes
import Verif.Proofs.Locking
import Verif.SpecColumns

/-!
# The network that a first `solve()` searches
-/

namespace Vrpy

open Spec

/-- The capacities the user gave: none, one number, or a list. -/
def Spec.userCapacities : Arg PyVal → List ℚ
  | .one (.int z) => if z = 0 then [] else [(z : ℚ)]
  | .one _ => []
  | .many xs => xs.map (fun v => match v with | .int z => (z : ℚ) | _ => 0)

/-- The demand the user gave a node. -/
def Spec.userDemand (G : DiGraph) (v : Node) : ℚ := (G.nd v).demand.getD 0

/-- The fleet bounds the user gave: none, one number, or a list. -/
def Spec.userFleet : Arg Nat → List Nat
  | .one n => if n = 0 then [] else [n]
  | .many xs => xs

/-- The arcs of the user's graph, completed: depot arcs are added where they are missing. -/
def Spec.UserArc (G : DiGraph) (u v : Node) : Prop :=
  v ∈ G.succ u ∨ (u = .source ∧ ∃ n, v = .cust n) ∨ (v = .sink ∧ ∃ n, u = .cust n) ∨ (u = .source ∧ v = .sink)

/-- What an arc costs vehicle type `k`: the user's cost, 10000000000 for a missing depot arc, plus the fixed cost for leaving
the depot; staying there costs nothing unless the user gave a price for it. -/
def Spec.userArcCost (P : Vrp) (k : Nat) (u v : Node) : ℚ :=
  if v ∈ P.G.succ u then userCost (P.G.ed u v).cost k + (if u = .source then userFixedCost P.fixedCost k else 0)
  else if u = .source ∧ v = .sink then 0
  else 10000000000 + (if u = .source then userFixedCost P.fixedCost k else 0)

/-- The object as `_pre_solve` sees it. -/
def Vrp.prepared (P : Vrp) (R Q : List (List Node)) : Vrp :=
  let P1 := { P with
    moreRoutes := true
    preassignments := if Q ≠ [] then Q else P.preassignments
    initialRoutes := if R ≠ [] then R else P.initialRoutes }
  if P1.mixedFleet then P1 else P1.format

theorem startSolve_prepared {dist : DistOracle} {strategy : String} {cspy : Bool} {R Q : List (List Node)} {P P' : Vrp}
    (h : P.startSolve dist strategy cspy R Q = .ok P') :
    ∃ G1 N N1 N2 N3, PreSolved dist strategy cspy (P.prepared R Q) P' G1 N N1 N2 N3 :=
  preSolve_inv h

section prepared

variable {P : Vrp} {R Q : List (List Node)}

theorem prepared_fields : (P.prepared R Q).preassignments = (if Q ≠ [] then Q else P.preassignments) ∧
    (P.prepared R Q).initialRoutes = (if R ≠ [] then R else P.initialRoutes) ∧
    (P.prepared R Q).numStops = P.numStops ∧ (P.prepared R Q).duration = P.duration ∧
    (P.prepared R Q).timeWindows = P.timeWindows ∧ (P.prepared R Q).pickupDelivery = P.pickupDelivery ∧
    (P.prepared R Q).distributionCollection = P.distributionCollection ∧ (P.prepared R Q).dropPenalty = P.dropPenalty ∧
    (P.prepared R Q).mixedFleet = P.mixedFleet ∧ (P.prepared R Q).periodic = P.periodic ∧
    (P.prepared R Q).useAllVehicles = P.useAllVehicles ∧ (P.prepared R Q).minimizeGlobalSpan = P.minimizeGlobalSpan ∧
    (P.prepared R Q).vehicleTypes = P.vehicleTypes ∧ (P.prepared R Q).moreRoutes = true := by
  unfold Vrp.prepared
  simp only
  split <;> exact ⟨rfl, rfl, rfl, rfl, rfl, rfl, rfl, rfl, rfl, rfl, rfl, rfl, rfl, rfl⟩

theorem prepared_graph : (P.prepared R Q).G.nodes = P.G.nodes ∧ (P.prepared R Q).G.succ = P.G.succ ∧
    (P.prepared R Q).G.nd = P.G.nd ∧ ∀ u v, ((P.prepared R Q).G.ed u v).time = (P.G.ed u v).time := by
  unfold Vrp.prepared
  simp only
  split
  · exact ⟨rfl, rfl, rfl, fun _ _ => rfl⟩
  · refine ⟨rfl, rfl, rfl, fun u v => ?_⟩
    simp only [Vrp.format, formatCosts]
    split
    · split <;> rfl
    · rfl

/-- Once the arguments are accepted, the fleet bounds in use are those the user gave. -/
theorem prepared_fleet {K : Option Nat} (h : (P.prepared R Q).typesStep = .ok K) :
    (P.prepared R Q).numVehicles.toList = userFleet P.numVehicles := by
  have hm' := prepared_fields (P := P) (R := R) (Q := Q) |>.2.2.2.2.2.2.2.2.1
  cases hm : P.mixedFleet with
  | false =>
    have : (P.prepared R Q).numVehicles = P.numVehicles.wrap (fun n => n ≠ 0) := by
      unfold Vrp.prepared
      simp only [hm, Bool.false_eq_true, if_false]
      rfl
    rw [this]
    cases hn : P.numVehicles with
    | one n => by_cases h0 : n = 0 <;> simp [Arg.wrap, Arg.toList, userFleet, h0]
    | many xs => rfl
  | true =>
    have : (P.prepared R Q).numVehicles = P.numVehicles := by
      unfold Vrp.prepared
      simp only [hm, if_true]
    rw [hm] at hm'
    simp only [Vrp.typesStep, hm', if_true] at h
    rw [this]
    cases hn : P.numVehicles with
    | one n =>
      by_cases h0 : n = 0
      · simp [Arg.toList, userFleet, h0]
      · exfalso
        rw [if_pos] at h
        · cases h
        · unfold Vrp.scalarInMixed
          rw [this, hn]
          simp [h0]
    | many xs => rfl

/-- Once the arguments are accepted, the capacities in use are those the user gave, and they are positive. -/
theorem prepared_capacities {dist : DistOracle} {strategy : String} {cspy : Bool} {P' : Vrp} {G1 : DiGraph}
    {N N1 N2 N3 : Net} (S : PreSolved dist strategy cspy (P.prepared R Q) P' G1 N N1 N2 N3) :
    capacities (P.prepared R Q).loadCapacity.toList = userCapacities P.loadCapacity ∧
    (∀ c ∈ userCapacities P.loadCapacity, 0 < c ∧ ∃ z : Int, c = z) := by
  have hpos := ((C44_accepts_exactly _ _ _ _ _ _ _ _ _).1 S.args).2.1
  have hlim : ∀ v : PyVal, v.limit.getD 0 = (match v with | .int z => (z : ℚ) | _ => 0) := by
    intro v; cases v <;> rfl
  have hmany : ∀ xs, capacities xs = userCapacities (.many xs) := by
    intro xs
    exact List.map_congr_left (fun v _ => hlim v)
  have key : capacities (P.prepared R Q).loadCapacity.toList = userCapacities P.loadCapacity := by
    cases hm : P.mixedFleet with
    | true =>
      have hlc : (P.prepared R Q).loadCapacity = P.loadCapacity := by simp [Vrp.prepared, hm]
      have hvt := S.vt
      have hm' : (P.prepared R Q).mixedFleet = true := by simp [Vrp.prepared, hm]
      simp only [Vrp.typesStep, hm', if_true] at hvt
      split at hvt
      · cases hvt
      · rename_i hsc
        rw [hlc]
        cases hl : P.loadCapacity with
        | many xs => exact hmany xs
        | one x =>
          simp only [Vrp.scalarInMixed, hlc, hl, Bool.or_eq_true, not_or] at hsc
          have hx := hsc.1.1
          cases x <;> simp_all [Arg.toList, userCapacities, PyVal.truthy, capacities]
    | false =>
      have hlc : (P.prepared R Q).loadCapacity = P.loadCapacity.wrap PyVal.truthy := by simp [Vrp.prepared, hm, Vrp.format]
      rw [hlc] at hpos ⊢
      cases hl : P.loadCapacity with
      | many xs => exact hmany xs
      | one x =>
        cases x with
        | none => simp [Arg.wrap, PyVal.truthy, Arg.toList, userCapacities, capacities]
        | int z =>
          by_cases hz : z = 0
          · simp [Arg.wrap, PyVal.truthy, hz, Arg.toList, userCapacities, capacities]
          · simp [Arg.wrap, PyVal.truthy, hz, Arg.toList, userCapacities, capacities, PyVal.limit]
        | other t =>
          cases t with
          | false => simp [Arg.wrap, PyVal.truthy, Arg.toList, userCapacities, capacities]
          | true =>
            obtain ⟨z, hz, _⟩ := hpos (.other true) (by simp [hl, Arg.wrap, PyVal.truthy, Arg.toList])
            cases hz
  refine ⟨key, ?_⟩
  rw [← key]
  intro c hc
  obtain ⟨v, hv, rfl⟩ := List.mem_map.1 hc
  obtain ⟨z, rfl, hz⟩ := hpos v hv
  exact ⟨by simpa [PyVal.limit] using hz, z, rfl⟩

end prepared

theorem create_ok {P : Vrp} {o : Obj} (h : Obj.create P = .ok o) :
    ∃ G, checkVrp P.G = .ok G ∧ o = { P := { P with
      G := G
      numVehiclesSchedule := []
      vehicleTypes := none
      initialRoutes := []
      preassignments := []
      moreRoutes := false
      H := none } } := by
  unfold Obj.create at h
  cases hc : checkVrp P.G with
  | error e => simp [hc] at h
  | ok G =>
    simp only [hc, Except.ok.injEq] at h
    exact ⟨G, rfl, h.symm⟩

theorem wf_of_sublists {N N' : Net} (h : WellFormed N) (hn : N'.nodes = N.nodes)
    (hs : ∀ u, (N'.succ u).Sublist (N.succ u)) : WellFormed N' where
  nodes_nodup := hn ▸ h.nodes_nodup
  succ_nodup := fun u => (h.succ_nodup u).sublist (hs u)
  edge_mem := fun u v hv => by rw [hn]; exact h.edge_mem u v ((hs u).subset hv)
  source_mem := hn ▸ h.source_mem
  sink_mem := hn ▸ h.sink_mem
  no_into_source := fun u hu => h.no_into_source u ((hs u).subset hu)
  no_out_of_sink := by
    have := hs .sink
    rw [h.no_out_of_sink] at this
    exact List.sublist_nil.1 this

/-- The dummy attributes keep the graph, except for the arc from Source to Sink. -/
theorem updateDummy_wf {K : Nat} {G : DiGraph} {N : Net} (hwf : G.WF) (hs : Node.source ∈ G.nodes) (ht : Node.sink ∈ G.nodes)
    (h1 : ∀ u, Node.source ∉ G.succ u) (h2 : ∀ v, v ∉ G.succ .sink) (h : updateDummyAttributes K G = .ok N) :
    WellFormed N ∧ N.nodes = G.nodes := by
  obtain ⟨N', d1, d2, _, d4, _⟩ := C47_defaults K G hs ht
  rw [h] at d1
  cases d1
  refine ⟨⟨by rw [d2]; exact hwf.nodes_nodup, ?_, ?_, by rw [d2]; exact hs, by rw [d2]; exact ht, ?_, ?_⟩, d2⟩
  · have hsucc : N.succ = (addSourceSink K (setZeroAttributes G)).succ := by
      unfold updateDummyAttributes at h
      cases hr : readjustSinkTimeWindows (setTimeToZeroIfMissing (addSourceSink K (setZeroAttributes G))) with
      | error e => simp [hr] at h
      | ok G' =>
        simp only [hr, Except.ok.injEq] at h
        subst h
        unfold readjustSinkTimeWindows at hr
        split at hr
        · split at hr
          · cases hr
          · cases hr; rfl
        · cases hr; rfl
    intro u
    rw [hsucc]
    unfold addSourceSink
    split
    · exact hwf.succ_nodup u
    · rename_i hno
      simp only [DiGraph.hasEdge, setZeroAttributes, decide_eq_true_eq] at hno
      simp only [DiGraph.addEdge, setZeroAttributes]
      split
      · rename_i hu
        rw [List.nodup_append]
        refine ⟨hwf.succ_nodup _, by simp, ?_⟩
        intro a ha b hb hab
        simp only [List.mem_singleton] at hb
        subst hb hab
        exact hno (decide_eq_true ha)
      · exact hwf.succ_nodup u
  · intro u v hv
    rw [d2]
    rcases (d4 u v).1 hv with h | ⟨rfl, rfl⟩
    · exact hwf.succ_mem u v h
    · exact ⟨hs, ht⟩
  · intro u hu
    rcases (d4 u .source).1 hu with h | ⟨_, h⟩
    · exact h1 u h
    · cases h
  · rw [List.eq_nil_iff_forall_not_mem]
    intro v hv
    rcases (d4 .sink v).1 hv with h | ⟨h, _⟩
    · exact h2 v h
    · cases h

/-- What is known about the network that a first `solve()` searches: `N` is the network of the reports, `N3` the one given to
column generation, `P'` the object after `_pre_solve`. -/
structure Searched (P0 P' : Vrp) (K : Nat) (N N3 : Net) : Prop where
  types : P'.vehicleTypes = some K
  typesPos : 0 < K
  typesOne : P0.mixedFleet = false → K = 1
  typesCaps : P0.mixedFleet = true → userCapacities P0.loadCapacity ≠ [] → (userCapacities P0.loadCapacity).length = K
  reports : P'.H = some N
  graph : P'.G = N3.toDiGraph
  wf : WellFormed N
  wfSearch : WellFormed N3
  same : SameData N N3
  nodes : N3.nodes = N.nodes
  userNodes : N.nodes = P0.G.nodes
  costs : ∀ u v, v ∈ N.succ u → (N.cost u v).length = K
  userArcs : ∀ u v, v ∈ N.succ u → UserArc P0.G u v
  arcCost : ∀ u v, v ∈ N.succ u → ∀ k < K, (N.cost u v).getD k 0 = userArcCost P0 k u v
  connected : DepotConnected N
  direct : Node.sink ∈ N.succ .source
  demandDepots : N.demand .source = 0 ∧ N.demand .sink = 0
  serviceDepots : (P0.G.nd .source).serviceTime.getD 0 = 0 → (P0.G.nd .sink).serviceTime.getD 0 = 0 →
    N.service .source = 0 ∧ N.service .sink = 0
  demand : ∀ v ∈ N.customers, N.demand v = userDemand P0.G v
  caps : capacities P'.loadCapacity.toList = userCapacities P0.loadCapacity
  capsPos : ∀ c ∈ userCapacities P0.loadCapacity, 0 < c
  stops : P0.distributionCollection = false → ∀ n, WithinStops P'.numStops.stops n → WithinStops P0.numStops.stops n
  stopsKept : (P0.distributionCollection = true → ∀ v ∈ N.nodes, 0 ≤ N.collect v ∧ (v = .source ∨ v = .sink → N.collect v = 0)) →
    ∀ l : List Node, l.Nodup → (∀ v ∈ l, v ∈ N.customers) →
    SomeCarries (userCapacities P0.loadCapacity) (l.map N.demand).sum →
    (P0.distributionCollection = true → SomeCarries (userCapacities P0.loadCapacity) (l.map N.collect).sum) →
    WithinStops P0.numStops.stops l.length → WithinStops P'.numStops.stops l.length
  fit : ∀ v ∈ N.customers, SomeCarries (userCapacities P0.loadCapacity) (N.demand v)
  fields : P'.preassignments = [] ∧ P'.timeWindows = P0.timeWindows ∧ P'.pickupDelivery = P0.pickupDelivery ∧
    P'.distributionCollection = P0.distributionCollection ∧ P'.dropPenalty = P0.dropPenalty ∧
    P'.mixedFleet = P0.mixedFleet ∧ P'.periodic = P0.periodic ∧ P'.useAllVehicles = P0.useAllVehicles ∧
    P'.minimizeGlobalSpan = P0.minimizeGlobalSpan ∧ P'.moreRoutes = true ∧ P'.duration = P0.duration
  fleet : P0.periodic.getD 0 = 0 → P'.numVehicles.toList = userFleet P0.numVehicles
  service : ∀ v ∈ N.nodes, N.service v = (P0.G.nd v).serviceTime.getD 0
  time : ∀ u v, v ∈ N.succ u → N.time u v = if v ∈ P0.G.succ u then (P0.G.ed u v).time.getD 0 else 0
  sinkUpper : N.upper .sink = 0 → ∀ u, Node.sink ∈ N.succ u → N.upper u + N.service u + N.time u .sink ≤ 0
  sourceUpper : N.upper .source = (P0.G.nd .source).upper.getD 0
  pruned : ∃ c N2, (∀ u v k, (c u v).getD k 0 = (N.cost u v).getD k 0 ∨ (c u v).getD k 0 = 0) ∧
    pruneGraph { N with cost := c } (userCapacities P0.loadCapacity) P0.timeWindows = .ok N2 ∧
    emptyRouteStep P0.useAllVehicles N2 = .ok N3

/-- What is known about the network of the reports. -/
structure Reported (P0 P' : Vrp) (Q : List (List Node)) (K : Nat) (N : Net) : Prop where
  types : P'.vehicleTypes = some K
  typesPos : 0 < K
  reports : P'.H = some N
  preassigned : P'.preassignments = Q
  more : (∃ n, Node.cust n ∈ P0.G.nodes ∧ Node.cust n ∉ lockedNodes Q) → P'.moreRoutes = true
  done : (¬ ∃ n, Node.cust n ∈ P0.G.nodes ∧ Node.cust n ∉ lockedNodes Q) → Q ≠ [] → P'.moreRoutes = false
  wf : WellFormed N
  userNodes : N.nodes = P0.G.nodes
  costs : ∀ u v, v ∈ N.succ u → (N.cost u v).length = K
  userArcs : ∀ u v, v ∈ N.succ u → UserArc P0.G u v
  arcs : ∀ u v, u ∈ P0.G.nodes → v ∈ P0.G.nodes → UserArc P0.G u v → v ∈ N.succ u
  arcCost : ∀ u v, v ∈ N.succ u → ∀ k < K, (N.cost u v).getD k 0 = userArcCost P0 k u v
  demandDepots : N.demand .source = 0 ∧ N.demand .sink = 0
  demand : ∀ v ∈ N.customers, N.demand v = userDemand P0.G v
  caps : capacities P'.loadCapacity.toList = userCapacities P0.loadCapacity
  along : ∀ r ∈ Q, Along (fun u v => v ∈ N.succ u) r
  depots : Node.source ∉ lockedNodes Q ∧ Node.sink ∉ lockedNodes Q

/-- The problem `P` without the nodes `L`. -/
def Spec.withoutNodes (P : Vrp) (L : List Node) : Vrp := { P with G := P.G.removeNodes L }

theorem mem_removeNodes_user {G : DiGraph} {L : List Node} {u v : Node} :
    v ∈ (G.removeNodes L).succ u ↔ v ∈ G.succ u ∧ u ∉ L ∧ v ∉ L := by
  simp only [DiGraph.removeNodes]
  by_cases hu : u ∈ L
  · simp [hu]
  · simp [hu]

theorem removeNodes_user_nil (P : Vrp) : withoutNodes P [] = P := by
  simp [withoutNodes, DiGraph.removeNodes]

theorem userArcCost_without {P : Vrp} {L : List Node} {k : Nat} {u v : Node} (hu : u ∉ L) (hv : v ∉ L) :
    userArcCost (withoutNodes P L) k u v = userArcCost P k u v := by
  have : v ∈ (withoutNodes P L).G.succ u ↔ v ∈ P.G.succ u := by
    show v ∈ (P.G.removeNodes L).succ u ↔ _
    rw [mem_removeNodes_user]
    exact ⟨fun h => h.1, fun h => ⟨h, hu, hv⟩⟩
  unfold userArcCost
  simp only [this]
  rfl

theorem userArc_without {G : DiGraph} {L : List Node} {u v : Node} (hu : u ∉ L) (hv : v ∉ L) (h : UserArc G u v) :
    UserArc (G.removeNodes L) u v := by
  rcases h with h | h
  · exact Or.inl (mem_removeNodes_user.2 ⟨h, hu, hv⟩)
  · exact Or.inr h

/-- Complete preassigned routes that were accepted do not pass through a depot. -/
theorem lockedNodes_depots {N : Net} (hwf : WellFormed N) {Q : List (List Node)} (h : ∀ r ∈ Q, Along (fun u v => v ∈ N.succ u) r) :
    Node.source ∉ lockedNodes Q ∧ Node.sink ∉ lockedNodes Q := by
  have key : ∀ v ∈ lockedNodes Q, (∃ u, v ∈ N.succ u) ∧ ∃ u, u ∈ N.succ v := by
    intro v hv
    simp only [lockedNodes, List.mem_flatMap, List.mem_filter] at hv
    obtain ⟨r, ⟨hr, _⟩, hv⟩ := hv
    have hal := h r hr
    cases r with
    | nil => simp [interior] at hv
    | cons a r =>
      simp only [interior, List.tail_cons] at hv
      obtain ⟨s, t, hst⟩ := List.append_of_mem hv
      have hne : r ≠ [] := by
        rintro rfl
        simp at hv
      have hr' : r = s ++ v :: t ++ [r.getLast hne] := by
        rw [← hst]
        exact (List.dropLast_append_getLast hne).symm
      rw [hr', along_iff] at hal
      have hgen : ∀ (x : Node) (s : List Node), ∃ u, (u, v) ∈ consecutive (x :: (s ++ v :: t ++ [r.getLast hne])) := by
        intro x s
        induction s generalizing x with
        | nil => exact ⟨x, by simp [consecutive]⟩
        | cons y s ih =>
          obtain ⟨u, hu⟩ := ih y
          exact ⟨u, by simp only [List.cons_append, consecutive, List.mem_cons]; right; exact hu⟩
      have hgen2 : ∀ (s : List Node), ∃ u, (v, u) ∈ consecutive (s ++ v :: t ++ [r.getLast hne]) := by
        intro s
        induction s with
        | nil =>
          cases t with
          | nil => exact ⟨r.getLast hne, by simp [consecutive]⟩
          | cons y t => exact ⟨y, by simp [consecutive]⟩
        | cons y s ih =>
          obtain ⟨u, hu⟩ := ih
          refine ⟨u, ?_⟩
          cases s with
          | nil => simp only [List.cons_append, List.nil_append, consecutive, List.mem_cons]; right; exact hu
          | cons z s => simp only [List.cons_append, consecutive, List.mem_cons]; right; exact hu
      obtain ⟨u1, h1⟩ := hgen a s
      obtain ⟨u2, h2⟩ := hgen2 (a :: s)
      exact ⟨⟨u1, hal _ _ h1⟩, ⟨u2, hal _ _ (by simpa using h2)⟩⟩
  constructor
  · intro hv
    obtain ⟨⟨u, hu⟩, _⟩ := key _ hv
    exact hwf.no_into_source u hu
  · intro hv
    obtain ⟨_, u, hu⟩ := key _ hv
    rw [hwf.no_out_of_sink] at hu
    simp at hu

theorem removeNodes_wf {N : Net} {L : List Node} (hwf : WellFormed N) (hs : Node.source ∉ L) (ht : Node.sink ∉ L) :
    WellFormed (N.removeNodes L) where
  nodes_nodup := hwf.nodes_nodup.sublist List.filter_sublist
  succ_nodup := by
    intro u
    simp only [Net.removeNodes]
    split
    · simp
    · exact (hwf.succ_nodup u).sublist List.filter_sublist
  edge_mem := by
    intro u v hv
    obtain ⟨h, hu, hv⟩ := mem_removeNodes_succ.1 hv
    obtain ⟨h1, h2⟩ := hwf.edge_mem u v h
    exact ⟨List.mem_filter.2 ⟨h1, by simpa using hu⟩, List.mem_filter.2 ⟨h2, by simpa using hv⟩⟩
  source_mem := List.mem_filter.2 ⟨hwf.source_mem, by simpa using hs⟩
  sink_mem := List.mem_filter.2 ⟨hwf.sink_mem, by simpa using ht⟩
  no_into_source := fun u hu => hwf.no_into_source u (mem_removeNodes_succ.1 hu).1
  no_out_of_sink := List.eq_nil_iff_forall_not_mem.2 (fun v hv => by
    have := (mem_removeNodes_succ.1 hv).1
    rw [hwf.no_out_of_sink] at this
    simp at this)

theorem documented_create {P : Vrp} {G : DiGraph} (hwf : P.G.WF) (h : checkVrp P.G = .ok G) (hdoc : CostsAsDocumented P) :
    P.mixedFleet = false → ∀ u v, v ∈ G.succ u → ∃ c, (G.ed u v).cost = some (.scalar c) ∨ (G.ed u v).cost = some (.list [c]) := by
  intro hm u v hv
  obtain ⟨_, _, _, _, _, _, _, _, _, _, hold, hnew⟩ := C01_constructor_completes _ _ hwf h
  by_cases hv' : v ∈ P.G.succ u
  · rw [hold u v hv']
    exact hdoc hm u v hv'
  · exact ⟨_, Or.inl (hnew u v hv hv').2.1⟩

/-- The network searched by a first `solve()` with preassigned routes is the one for the problem without the customers of
the complete ones, except that arcs of partial routes may cost nothing. -/
theorem searched_locked {w : World} {a : SolveArgs} {P0 P' : Vrp} {o : Obj} (hwf : P0.G.WF)
    (hcust : ∃ n, Node.cust n ∈ P0.G.nodes) (hdoc : CostsAsDocumented P0)
    (hdem : ∀ v ∈ P0.G.nodes, P0.pickupDelivery = false ∨ v = .source ∨ v = .sink → 0 ≤ userDemand P0.G v)
    (hc : Obj.create P0 = .ok o)
    (h : o.P.startSolve w.dist a.strategy a.cspy a.initialRoutes a.preassignments = .ok P') :
    ∃ K N N3, Reported P0 P' a.preassignments K N ∧
      Searched (withoutNodes P0 (lockedNodes a.preassignments))
        { P' with
          H := some (N.removeNodes (lockedNodes a.preassignments))
          preassignments := []
          moreRoutes := true } K (N.removeNodes (lockedNodes a.preassignments)) N3 := by
  obtain ⟨G, hG, rfl⟩ := create_ok hc
  obtain ⟨g1, g2, g3, g4, g5, g6, g7, g8, g9, g10, g11, g12⟩ := C01_constructor_completes _ _ hwf hG
  set P1 : Vrp := { P0 with
      G := G
      numVehiclesSchedule := []
      vehicleTypes := none
      initialRoutes := []
      preassignments := []
      moreRoutes := false
      H := none } with hP1
  have hedge : ∃ u v, v ∈ P1.G.succ u := by
    obtain ⟨n, hn⟩ := hcust
    exact ⟨_, _, (g6 n (by rw [g8]; exact hn)).1⟩
  have hdoc1 : CostsAsDocumented P1 := fun hm => documented_create hwf hG hdoc hm
  obtain ⟨K, N, N3, hK, hH, hG3, hsame, hsucc, hnew, hcost⟩ :=
    arcs_of_startSolve (P := P1) g1 g2 g3 hedge hdoc1 h
  obtain ⟨G1, N', N1, N2, N3', S⟩ := startSolve_prepared h
  obtain ⟨f1, f2, f3, f4, f5, f6, f7, f8, f9, f10, f11, f12, f13, f14⟩ :=
    prepared_fields (P := P1) (R := a.initialRoutes) (Q := a.preassignments)
  obtain ⟨q1, q2, q3, q4⟩ := prepared_graph (P := P1) (R := a.initialRoutes) (Q := a.preassignments)
  obtain ⟨hcaps, hcpos⟩ := prepared_capacities S
  have hres := S.result
  have hN' : N' = N := by
    have : P'.H = some N' := by rw [hres]
    rw [hH] at this
    exact (Option.some.inj this).symm
  subst hN'
  have hN3' : N3' = N3 := by
    have : P'.G = N3'.toDiGraph := by rw [hres]
    rw [hG3] at this
    have := congrArg DiGraph.toNet this
    exact this.symm
  subst hN3'
  have hpre' : (P1.prepared a.initialRoutes a.preassignments).preassignments = a.preassignments := by
    rw [f1]
    split
    · rfl
    · rename_i h0
      push Not at h0
      rw [h0]
  have hlock := S.locked
  rw [hpre'] at hlock
  obtain ⟨⟨c, hN1, hc0⟩, halong⟩ := lockStep_eq hlock
  have hmore := hres
  rw [hpre'] at hmore
  set L := lockedNodes a.preassignments with hL
  subst hN1
  -- the vehicle types
  have htypes : 0 < K ∧ (P0.mixedFleet = false → K = 1) ∧
      (P0.mixedFleet = true → userCapacities P0.loadCapacity ≠ [] → (userCapacities P0.loadCapacity).length = K) := by
    have hvt := S.vt
    rw [hK] at hvt
    cases hm : P0.mixedFleet with
    | false =>
      have hm' : (P1.prepared a.initialRoutes a.preassignments).mixedFleet = false := by rw [f9]; exact hm
      simp only [Vrp.typesStep, hm', Bool.false_eq_true, if_false, Except.ok.injEq, Option.some.injEq] at hvt
      subst hvt
      exact ⟨by omega, fun _ => rfl, fun hf => (by cases hf)⟩
    | true =>
      have hm1 : P1.mixedFleet = true := hm
      have hm' : (P1.prepared a.initialRoutes a.preassignments).mixedFleet = true := by rw [f9]; exact hm
      have hlen : capacities (P1.prepared a.initialRoutes a.preassignments).loadCapacity.toList ≠ [] →
          (P1.prepared a.initialRoutes a.preassignments).loadCapacity.toList.length = K := by
        intro hne
        simp only [Vrp.typesStep, hm', if_true] at hvt
        split at hvt
        · cases hvt
        · unfold Vrp.defineVehicleTypes at hvt
          split at hvt
          · rename_i x hx
            rw [hx] at hne
            simp [Arg.toList, capacities] at hne
          · rename_i hx
            rw [hx] at hne
            simp [Arg.toList, capacities] at hne
          · rename_i xs _ hx
            rw [hx]
            simpa [Arg.toList] using hvt
      refine ⟨?_, fun hf => (by cases hf), fun _ hne => ?_⟩
      · simp only [Vrp.typesStep, hm', if_true] at hvt
        have hveh : Vrp.defineVehicleTypes.vehicles (P1.prepared a.initialRoutes a.preassignments) = .ok (some K) → 0 < K := by
          intro hv
          unfold Vrp.defineVehicleTypes.vehicles at hv
          split at hv
          · split at hv
            · cases hv
            · rw [f13] at hv
              cases hv
          · rw [f13] at hv
            cases hv
          · rename_i xs hne _
            simp only [Except.ok.injEq, Option.some.injEq] at hv
            subst hv
            exact List.length_pos_iff.2 (fun h0 => hne h0)
        have hfix : Vrp.defineVehicleTypes.fixed (P1.prepared a.initialRoutes a.preassignments) = .ok (some K) → 0 < K := by
          intro hv
          unfold Vrp.defineVehicleTypes.fixed at hv
          split at hv
          · split at hv
            · cases hv
            · exact hveh hv
          · exact hveh hv
          · rename_i xs hne _
            simp only [Except.ok.injEq, Option.some.injEq] at hv
            subst hv
            exact List.length_pos_iff.2 (fun h0 => hne h0)
        split at hvt
        · cases hvt
        · unfold Vrp.defineVehicleTypes at hvt
          split at hvt
          · split at hvt
            · cases hvt
            · exact hfix hvt
          · exact hfix hvt
          · rename_i xs hne _
            simp only [Except.ok.injEq, Option.some.injEq] at hvt
            subst hvt
            exact List.length_pos_iff.2 (fun h0 => hne h0)
      · rw [← hlen (by rw [hcaps]; exact hne)]
        have := congrArg List.length hcaps
        simp only [capacities, List.length_map] at this
        exact this.symm
  -- the graph with the fixed costs
  have hG1 : G1.nodes = P0.G.nodes ∧ G1.succ = G.succ ∧ G1.nd = P0.G.nd := by
    have hfx := S.fixed
    unfold fixedStep at hfx
    split at hfx
    · obtain ⟨e1, e2, e3, _⟩ := addFixedCosts_ok (by rw [q2]; exact g1.succ_nodup _) hfx
      exact ⟨by rw [e1, q1]; exact g8, by rw [e3, q2], by rw [e2, q3]; exact g9⟩
    · cases hfx
      exact ⟨by rw [q1]; exact g8, q2, by rw [q3]; exact g9⟩
  have htime1 : ∀ u v, (G1.ed u v).time = (G.ed u v).time := by
    have hfx := S.fixed
    unfold fixedStep at hfx
    split at hfx
    · obtain ⟨_, _, _, e4, _⟩ := addFixedCosts_ok (by rw [q2]; exact g1.succ_nodup _) hfx
      exact fun u v => (e4 u v).trans (q4 u v)
    · cases hfx
      exact q4
  have hs1 : Node.source ∈ G1.nodes := by rw [hG1.1, ← g8]; exact g2
  have ht1 : Node.sink ∈ G1.nodes := by rw [hG1.1, ← g8]; exact g3
  have hwf1 : G1.WF := ⟨by rw [hG1.1, ← g8]; exact g1.nodes_nodup, fun u => by rw [hG1.2.1]; exact g1.succ_nodup u,
    fun u v hv => by rw [hG1.1, ← g8]; rw [hG1.2.1] at hv; exact g1.succ_mem u v hv⟩
  obtain ⟨hwfN, hnodesN⟩ := updateDummy_wf hwf1 hs1 ht1 (by rw [hG1.2.1]; exact g4) (by rw [hG1.2.1]; exact g5) S.dummy
  obtain ⟨N', d1, _, d3, _, d5, d6⟩ := C47_defaults (P'.vehicleTypes.getD 0) G1 hs1 ht1
  rw [S.dummy] at d1
  cases d1
  -- demands
  have hdemand : ∀ v ∈ P0.G.nodes, (v = .source ∨ v = .sink → N'.demand v = 0) ∧
      (v ≠ .source → v ≠ .sink → N'.demand v = userDemand P0.G v) := by
    intro v hv
    obtain ⟨⟨m1, m2, m3⟩, _⟩ := d3 v (by rw [hG1.1]; exact hv)
    rw [hG1.2.2] at m1 m2 m3
    have h0 := hdem v hv
    unfold userDemand at h0 ⊢
    cases hd : (P0.G.nd v).demand with
    | none => exact ⟨fun _ => m1 hd, fun _ _ => m1 hd⟩
    | some q =>
      rw [hd] at h0
      simp only [Option.getD_some] at h0 ⊢
      refine ⟨fun hdep => ?_, fun hv1 hv2 => m3 q hd (by rintro ⟨h | h, _⟩ <;> contradiction)⟩
      replace h0 := h0 (Or.inr hdep)
      rcases lt_or_eq_of_le h0 with h | h
      · exact m2 q hd hdep h
      · rw [m3 q hd (by rintro ⟨_, h'⟩; rw [← h] at h'; exact lt_irrefl _ h')]
        exact h.symm
  have hservice : ∀ v ∈ P0.G.nodes, N'.service v = (P0.G.nd v).serviceTime.getD 0 := by
    intro v hv
    obtain ⟨_, _, ⟨m1, m2⟩, _⟩ := d3 v (by rw [hG1.1]; exact hv)
    rw [hG1.2.2] at m1 m2
    cases hd : (P0.G.nd v).serviceTime with
    | none => exact m1 hd
    | some q => exact m2 q hd
  have hsrc : Node.source ∈ P0.G.nodes := by rw [← g8]; exact g2
  have hsnk : Node.sink ∈ P0.G.nodes := by rw [← g8]; exact g3
  have hprune := S.pruned
  unfold pruneStep at hprune
  split at hprune
  · cases hprune
  rename_i hlc
  have hpd := pruneGraph_same hprune
  obtain ⟨e1, e2, e3, _, _, _⟩ := emptyRouteStep_same S.emptyRoute
  obtain ⟨hsL, htL⟩ := lockedNodes_depots hwfN halong
  have hwfM := removeNodes_wf hwfN hsL htL
  have hM : ∀ v, v ∈ (N'.removeNodes L).nodes ↔ v ∈ N'.nodes ∧ v ∉ L := fun v => by
    simp [Net.removeNodes]
  have hMs : ∀ u v, v ∈ (N'.removeNodes L).succ u ↔ v ∈ N'.succ u ∧ u ∉ L ∧ v ∉ L := fun u v => mem_removeNodes_succ
  have hMc : ∀ v, v ∈ (N'.removeNodes L).customers → v ∈ N'.customers := fun v hv => by
    rw [mem_customers] at hv ⊢
    exact ⟨((hM v).1 hv.1).1, hv.2⟩
  have hsub : ∀ u, (N3'.succ u).Sublist ((N'.removeNodes L).succ u) := by
    intro u
    rw [e3]
    exact hpd.sublist u
  have hwf3 : WellFormed N3' := wf_of_sublists hwfM (e2.trans hpd.nodes_eq) hsub
  have hnn : P0.pickupDelivery = false → ∀ v ∈ (N'.removeNodes L).nodes, 0 ≤ N'.demand v := by
    intro hpd v hv
    replace hv := ((hM v).1 hv).1
    rw [hnodesN, hG1.1] at hv
    by_cases hdep : v = .source ∨ v = .sink
    · rw [(hdemand v hv).1 hdep]
    · push Not at hdep
      rw [(hdemand v hv).2 hdep.1 hdep.2]
      exact hdem v hv (Or.inl hpd)
  have hcap' : ∀ c cs, userCapacities P0.loadCapacity = c :: cs → ∃ q : Nat, ((capacities
      (P1.prepared a.initialRoutes a.preassignments).loadCapacity.toList).foldl max 0).floor.toNat = q ∧
      (q : ℚ) ∈ c :: cs ∧ ∀ x ∈ c :: cs, x ≤ (q : ℚ) := by
    intro c cs hcs
    have hc0 := (hcpos c (by rw [hcs]; simp)).1
    have hm : (capacities (P1.prepared a.initialRoutes a.preassignments).loadCapacity.toList).foldl max 0 = cs.foldl max c := by
      rw [hcaps]
      show (userCapacities P0.loadCapacity).foldl max 0 = _
      rw [hcs, List.foldl_cons, max_eq_right hc0.le]
    have hmem := foldl_max_mem c cs
    obtain ⟨hpos, z, hz⟩ := hcpos (cs.foldl max c) (show _ ∈ userCapacities P0.loadCapacity by rw [hcs]; exact hmem)
    have hz0 : 0 ≤ z := by
      rw [hz] at hpos
      exact_mod_cast hpos.le
    have hq : ((z.toNat : Nat) : ℚ) = cs.foldl max c := by
      rw [hz]
      have : ((z.toNat : Nat) : ℤ) = z := Int.toNat_of_nonneg hz0
      exact_mod_cast this
    refine ⟨z.toNat, ?_, by rw [hq]; exact hmem, ?_⟩
    · rw [hm, hz]
      congr 1
    · intro x hx
      rw [hq]
      rcases List.mem_cons.1 hx with rfl | hx
      · exact (le_foldl_max _ _).1
      · exact (le_foldl_max _ _).2 x hx
  have hstops : (P0.distributionCollection = true → ∀ v ∈ (N'.removeNodes L).nodes, 0 ≤ N'.collect v ∧
        (v = .source ∨ v = .sink → N'.collect v = 0)) →
      (∀ n, WithinStops P'.numStops.stops n → WithinStops P0.numStops.stops n) ∧
      ∀ l : List Node, l.Nodup → (∀ v ∈ l, v ∈ (N'.removeNodes L).customers) →
        SomeCarries (userCapacities P0.loadCapacity) (l.map N'.demand).sum →
        (P0.distributionCollection = true → SomeCarries (userCapacities P0.loadCapacity) (l.map N'.collect).sum) →
        WithinStops P0.numStops.stops l.length → WithinStops P'.numStops.stops l.length := by
    intro hcol
    have hst := S.stops
    unfold stopsStep at hst
    rw [f3, f6, f7] at hst
    split at hst
    · rename_i hcond
      have hne : userCapacities P0.loadCapacity ≠ [] := by
        intro h0
        have h0' : capacities (P1.prepared a.initialRoutes a.preassignments).loadCapacity.toList = [] := hcaps.trans h0
        exact hcond.1 (List.map_eq_nil_iff.1 h0')
      obtain ⟨c, cs, hcs⟩ := List.exists_cons_of_ne_nil hne
      obtain ⟨q, hq1, hq2, hq3⟩ := hcap' c cs hcs
      rw [hq1] at hst
      have hnd2 : N2.nodes = (N'.removeNodes L).nodes := hpd.nodes_eq
      have hde2 : N2.demand = N'.demand := hpd.same.demand
      have hco2 : N2.collect = N'.collect := hpd.same.collect
      obtain ⟨b, hb1, hb2, hb3, hb4⟩ := C03_stops_bound_sound N2 (by rw [hnd2]; exact hwfM.source_mem)
        (by rw [hnd2]; exact hwfM.sink_mem) (by rw [hnd2, hde2]; exact hnn hcond.2)
        (by rw [hde2]; exact ⟨(hdemand _ hsrc).1 (Or.inl rfl), (hdemand _ hsnk).1 (Or.inr rfl)⟩)
        P1.distributionCollection
        (by
          intro hdc
          rw [hnd2, hco2]
          exact ⟨fun v hv => (hcol hdc v hv).1, (hcol hdc _ hwfM.source_mem).2 (Or.inl rfl),
            (hcol hdc _ hwfM.sink_mem).2 (Or.inr rfl)⟩) q P1.numStops.stops
      rw [hb1] at hst
      simp only [Except.ok.injEq] at hst
      have hstops : P'.numStops.stops = some b := by
        rw [← hst]
        simp [PyVal.stops, hb2]
      rw [hstops]
      refine ⟨?_, ?_⟩
      · intro n hn m hm hm0
        exact (hn b rfl (by omega)).trans (hb3 m hm hm0)
      · intro l hl hmem hcar hcar' hwi m hm _
        cases hm
        refine hb4 l hl ?_ ?_ ?_ (fun s hs hs0 => hwi s hs hs0)
        · intro v hv
          rw [hnd2]
          exact mem_customers.1 (hmem v hv)
        · rw [hde2]
          rcases hcar with h0 | ⟨x, hx, hle⟩
          · exact absurd h0 hne
          · exact hle.trans (hq3 x (hcs ▸ hx))
        · intro hdc
          rw [hco2]
          rcases hcar' hdc with h0 | ⟨x, hx, hle⟩
          · exact absurd h0 hne
          · exact hle.trans (hq3 x (hcs ▸ hx))
    · simp only [Except.ok.injEq] at hst
      rw [← hst]
      exact ⟨fun n h => h, fun l _ _ _ _ h => h⟩
  have hfit : ∀ v ∈ N'.customers, SomeCarries (userCapacities P0.loadCapacity) (N'.demand v) := by
    intro v hv
    have hf := S.feasible
    rw [hcaps] at hf
    unfold checkFeasibility at hf
    have hf := (py_seq_ok.1 hf).1
    cases hcs : userCapacities P0.loadCapacity with
    | nil => exact Or.inl rfl
    | cons c cs =>
      right
      have hf' : checkDemands (c :: cs) N' = .ok () := by rw [← hcs]; exact hf
      unfold checkDemands at hf'
      have := (forM_ok_iff _ _).1 hf' v (mem_customers.1 hv).1
      refine ⟨cs.foldl max c, foldl_max_mem c cs, ?_⟩
      by_contra hlt
      rw [if_pos (not_le.1 hlt)] at this
      cases this
  have hcosts : ∀ u v, v ∈ N'.succ u → (N'.cost u v).length = K := by
    intro u v hv
    by_cases hv' : v ∈ P1.G.succ u
    · exact (hcost u v hv').1
    · rcases (hsucc u v).1 hv with h | ⟨rfl, rfl⟩
      · exact absurd h hv'
      · rw [hnew hv']; simp
  have huserArcs : ∀ u v, v ∈ N'.succ u → UserArc P0.G u v := by
    intro u v hv
    rcases (hsucc u v).1 hv with h | h
    · by_cases hv' : v ∈ P0.G.succ u
      · exact Or.inl hv'
      · rcases (g12 u v h hv').1 with h | h
        · exact Or.inr (Or.inl h)
        · exact Or.inr (Or.inr (Or.inl h))
    · exact Or.inr (Or.inr (Or.inr h))
  have harcCost : ∀ u v, v ∈ N'.succ u → ∀ k < K, (N'.cost u v).getD k 0 = userArcCost P0 k u v := by
    intro u v hv k hk
    unfold userArcCost
    rcases (hsucc u v).1 hv with h | h
    · rw [(hcost u v h).2 k hk]
      by_cases hv' : v ∈ P0.G.succ u
      · rw [if_pos hv', show P1.G.ed u v = P0.G.ed u v from g11 u v hv']
      · obtain ⟨hd, hc, _⟩ := g12 u v h hv'
        have hne : ¬ (u = .source ∧ v = .sink) := by
          rintro ⟨h1, h2⟩
          rw [h1, h2] at hd
          simp at hd
        rw [if_neg hv', if_neg hne, show (P1.G.ed u v).cost = some (.scalar 10000000000) from hc]
        rfl
    · obtain ⟨rfl, rfl⟩ := h
      by_cases hv' : Node.sink ∈ P1.G.succ .source
      · have h0 : Node.sink ∈ P0.G.succ .source := by
          by_contra h0
          rcases (g12 _ _ hv' h0).1 with ⟨_, n, hn⟩ | ⟨_, n, hn⟩ <;> cases hn
        rw [(hcost _ _ hv').2 k hk, if_pos h0, show P1.G.ed .source .sink = P0.G.ed .source .sink from g11 _ _ h0]
      · have h0 : Node.sink ∉ P0.G.succ .source := fun h0 => hv' ((g10 _).subset h0)
        rw [hnew hv', if_neg h0, if_pos ⟨rfl, rfl⟩]
        simp [List.getD_eq_getElem?_getD, List.getElem?_replicate, hk]
  have hdemands : ∀ v ∈ N'.customers, N'.demand v = userDemand P0.G v := by
    intro v hv
    obtain ⟨h1, h2, h3⟩ := mem_customers.1 hv
    rw [hnodesN, hG1.1] at h1
    exact (hdemand v h1).2 h2 h3
  have hcaps' : capacities P'.loadCapacity.toList = userCapacities P0.loadCapacity := by rw [hres]; exact hcaps
  have hdepots := And.intro ((hdemand _ hsrc).1 (Or.inl rfl)) ((hdemand _ hsnk).1 (Or.inr rfl))
  have hMlen : (N'.removeNodes L).nodes.length = 2 ↔ ¬ ∃ n, Node.cust n ∈ P0.G.nodes ∧ Node.cust n ∉ L := by
    rw [← hG1.1, ← hnodesN]
    constructor
    · rintro hlen ⟨n, hn, hnL⟩
      have hsub : [Node.source, .sink, .cust n].Subperm (N'.removeNodes L).nodes :=
        List.subperm_of_subset (by simp) (by
          intro v hv
          simp only [List.mem_cons, List.not_mem_nil, or_false] at hv
          rcases hv with rfl | rfl | rfl
          · exact hwfM.source_mem
          · exact hwfM.sink_mem
          · exact (hM _).2 ⟨hn, hnL⟩)
      have := hsub.length_le
      simp only [List.length_cons, List.length_nil] at this
      omega
    · intro hno
      have : (N'.removeNodes L).nodes.Perm [Node.source, .sink] := by
        refine (List.perm_ext_iff_of_nodup hwfM.nodes_nodup (by simp)).2 (fun v => ?_)
        simp only [List.mem_cons, List.not_mem_nil, or_false]
        constructor
        · intro hv
          obtain ⟨h1, h2⟩ := (hM v).1 hv
          cases v with
          | source => exact Or.inl rfl
          | sink => exact Or.inr rfl
          | cust n => exact absurd ⟨n, h1, h2⟩ hno
        · rintro (rfl | rfl)
          · exact hwfM.source_mem
          · exact hwfM.sink_mem
      rw [this.length_eq]
      rfl
  have hN1len : ({ N'.removeNodes L with cost := c } : Net).nodes.length = (N'.removeNodes L).nodes.length := rfl
  refine ⟨K, N', N3', ⟨hK, htypes.1, hH, by rw [hres]; exact hpre', ?_, ?_, hwfN, hnodesN.trans hG1.1, hcosts, huserArcs, ?_, harcCost,
    hdepots, hdemands, hcaps', halong, ⟨hsL, htL⟩⟩, ?_⟩
  · intro hex
    rw [hmore]
    have : ¬ (N'.removeNodes L).nodes.length = 2 := fun h2 => hMlen.1 h2 hex
    simp only [hN1len, this, and_false, if_false]
    exact f14
  · intro hno hQ
    rw [hmore]
    simp [hN1len, hMlen.2 hno, hQ]
  · intro u v hu hv hua
    rw [← g8] at hu hv
    refine (hsucc u v).2 ?_
    rcases hua with h | ⟨rfl, n, rfl⟩ | ⟨rfl, n, rfl⟩ | h
    · exact Or.inl ((g10 u).subset h)
    · exact Or.inl (g6 n hv).1
    · exact Or.inl (g6 n hu).2
    · exact Or.inr h
  have hin : ∀ v, v ∉ L → v ∈ N'.nodes → v ∈ (N'.removeNodes L).nodes := fun v h1 h2 => (hM v).2 ⟨h2, h1⟩
  refine ⟨hK, htypes.1, htypes.2.1, htypes.2.2, rfl, hG3, hwfM, hwf3, ?_, e2.trans hpd.nodes_eq,
    ?_, fun u v hv => hcosts u v ((hMs u v).1 hv).1, ?_, ?_, ?_, (hMs _ _).2 ⟨(hsucc _ _).2 (Or.inr ⟨rfl, rfl⟩), hsL, htL⟩,
    hdepots, ?_, fun v hv => hdemands v (hMc v hv), hcaps', fun c hc => (hcpos c hc).1,
    fun hdc => (hstops (fun h => absurd (hdc.symm.trans h : false = true) (by simp))).1, fun hdc => (hstops hdc).2, fun v hv => hfit v (hMc v hv), ?_, ?_,
    fun v hv => hservice v (by rw [← hG1.1, ← hnodesN]; exact ((hM v).1 hv).1), ?_, ?_, ?_, ?_⟩
  · exact ⟨hsame.demand, hsame.collect, hsame.service, hsame.freq, hsame.request, hsame.time,
      fun v hv => by rw [e2, hpd.nodes_eq] at hv; exact hv, fun u v hv => (hsub u).subset hv, hsame.costLength⟩
  · show N'.nodes.filter _ = P0.G.nodes.filter _
    rw [hnodesN.trans hG1.1]
  · intro u v hv
    obtain ⟨h1, h2, h3⟩ := (hMs u v).1 hv
    exact userArc_without h2 h3 (huserArcs u v h1)
  · intro u v hv k hk
    obtain ⟨h1, h2, h3⟩ := (hMs u v).1 hv
    rw [userArcCost_without h2 h3]
    exact harcCost u v h1 k hk
  · intro n hn
    obtain ⟨hn, hnL⟩ := (hM _).1 hn
    rw [hnodesN, hG1.1, ← g8] at hn
    exact ⟨(hMs _ _).2 ⟨(hsucc _ _).2 (Or.inl (g6 n hn).1), hsL, hnL⟩, (hMs _ _).2 ⟨(hsucc _ _).2 (Or.inl (g6 n hn).2), hnL, htL⟩⟩
  · intro h1 h2
    show N'.service .source = 0 ∧ N'.service .sink = 0
    rw [hservice _ hsrc, hservice _ hsnk]
    exact ⟨h1, h2⟩
  · rw [hres]
    exact ⟨rfl, f5, f6, f7, f8, f9, f10, f11, f12, rfl, f4⟩
  · intro hper
    rw [hres]
    have hper1 : (P1.prepared a.initialRoutes a.preassignments).periodic.getD 0 = 0 := by rw [f10]; exact hper
    simp only [checkPeriodicNumVehicles, hper1, ne_eq, not_true_eq_false, false_and, if_false]
    show (P1.prepared a.initialRoutes a.preassignments).numVehicles.toList = _
    exact prepared_fleet S.vt
  · have htime : ∀ u v, v ∈ G.succ u → N'.time u v = (G.ed u v).time.getD 0 := by
      intro u v hv
      obtain ⟨t1, t2, _⟩ := d5 u v (by rw [hG1.2.1]; exact hv)
      rw [htime1] at t1 t2
      cases ht : (G.ed u v).time with
      | none => exact t1 ht
      | some x => exact t2 x ht
    intro u v hv
    obtain ⟨hv, h2, h3⟩ := (hMs u v).1 hv
    have hiff : v ∈ (withoutNodes P0 L).G.succ u ↔ v ∈ P0.G.succ u := by
      show v ∈ (P0.G.removeNodes L).succ u ↔ _
      rw [mem_removeNodes_user]
      exact ⟨fun h => h.1, fun h => ⟨h, h2, h3⟩⟩
    simp only [hiff]
    show N'.time u v = if v ∈ P0.G.succ u then (P0.G.ed u v).time.getD 0 else 0
    rcases (hsucc u v).1 hv with h | ⟨rfl, rfl⟩
    · rw [htime u v h]
      by_cases hv' : v ∈ P0.G.succ u
      · rw [if_pos hv', g11 u v hv']
      · rw [if_neg hv', (g12 u v h hv').2.2]
        rfl
    · by_cases hv' : Node.sink ∈ P0.G.succ .source
      · rw [if_pos hv', htime _ _ ((g10 _).subset hv'), g11 _ _ hv']
      · have h0 : Node.sink ∉ G.succ .source := by
          intro h0
          rcases (g12 _ _ h0 hv').1 with ⟨_, n, hn⟩ | ⟨_, n, hn⟩ <;> cases hn
        rw [if_neg hv', (d6 (by rw [hG1.2.1]; exact h0)).1]
  · intro h0 u hu
    replace hu := ((hMs _ _).1 hu).1
    replace h0 : N'.upper .sink = 0 := h0
    obtain ⟨N4, w1, w2, w3⟩ := C48_sink_window (P'.vehicleTypes.getD 0) G1 hs1 ht1 hwf1
      (List.eq_nil_iff_forall_not_mem.2 (by rw [hG1.2.1]; exact g5))
    rw [S.dummy] at w1
    cases w1
    have h00 : (G1.nd .sink).upper = none ∨ (G1.nd .sink).upper = some 0 := by
      cases hup : (G1.nd .sink).upper with
      | none => exact Or.inl rfl
      | some q =>
        by_cases hq : q = 0
        · rw [hq]; exact Or.inr rfl
        · exact absurd ((w2 q hup hq).symm.trans h0) hq
    have := (w3 h00).1 u (N'.upper u) hu (le_refl _)
    rwa [h0] at this
  · obtain ⟨_, _, _, _, m, _⟩ := d3 .source (by rw [hG1.1]; exact hsrc)
    obtain ⟨m1, m2⟩ := m (by simp)
    rw [hG1.2.2] at m1 m2
    show N'.upper .source = (P0.G.nd .source).upper.getD 0
    cases hd : (P0.G.nd .source).upper with
    | none => exact m1 hd
    | some q => exact m2 q hd
  · refine ⟨c, N2, hc0, ?_, ?_⟩
    · rw [← hprune, f5]
      show pruneGraph _ (userCapacities P0.loadCapacity) P0.timeWindows = _
      rw [← hcaps]
    · rw [← S.emptyRoute, f11]
      rfl

theorem searched_of {w : World} {a : SolveArgs} {P0 P' : Vrp} {o : Obj} (hwf : P0.G.WF) (hcust : ∃ n, Node.cust n ∈ P0.G.nodes)
    (hdoc : CostsAsDocumented P0)
    (hdem : ∀ v ∈ P0.G.nodes, P0.pickupDelivery = false ∨ v = .source ∨ v = .sink → 0 ≤ userDemand P0.G v)
    (hpre : a.preassignments = [])
    (hc : Obj.create P0 = .ok o)
    (h : o.P.startSolve w.dist a.strategy a.cspy a.initialRoutes a.preassignments = .ok P') :
    ∃ K N N3, Searched P0 P' K N N3 := by
  obtain ⟨K, N, N3, R, S⟩ := searched_locked (w := w) hwf hcust hdoc hdem hc h
  have hL : lockedNodes a.preassignments = [] := by rw [hpre]; rfl
  rw [hL, removeNodes_nil, removeNodes_user_nil] at S
  have hP : ({ P' with
      H := some N
      preassignments := []
      moreRoutes := true } : Vrp) = P' := by
    have h1 := R.reports
    have h2 := R.preassigned
    have h3 := R.more (by rw [hL]; simpa using hcust)
    rw [hpre] at h2
    rw [← h1, ← h2, ← h3]
  rw [hP] at S
  exact ⟨K, N, N3, S⟩

theorem searched {w : World} {a : SolveArgs} {P0 P' : Vrp} {o : Obj} (hwf : P0.G.WF) (hcust : ∃ n, Node.cust n ∈ P0.G.nodes)
    (hdoc : CostsAsDocumented P0) (hdem : ∀ v ∈ P0.G.nodes, 0 ≤ userDemand P0.G v) (hpre : a.preassignments = [])
    (hc : Obj.create P0 = .ok o)
    (h : o.P.startSolve w.dist a.strategy a.cspy a.initialRoutes a.preassignments = .ok P') :
    ∃ K N N3, Searched P0 P' K N N3 :=
  searched_of hwf hcust hdoc (fun v hv _ => hdem v hv) hpre hc h

/-- A first `solve()` starts from the initial routes in its arguments. -/
theorem startSolve_initial {w : World} {a : SolveArgs} {P0 P' : Vrp} {o : Obj} (hc : Obj.create P0 = .ok o)
    (h : o.P.startSolve w.dist a.strategy a.cspy a.initialRoutes a.preassignments = .ok P') :
    P'.initialRoutes = a.initialRoutes := by
  obtain ⟨G, hG, rfl⟩ := create_ok hc
  obtain ⟨G1, N', N1, N2, N3', S⟩ := startSolve_prepared h
  rw [S.result]
  refine prepared_fields.2.1.trans ?_
  split
  · rfl
  · rename_i h0
    push Not at h0
    rw [h0]

/-- Without time windows the pruning keeps every customer connected to the depots. -/
theorem Searched.depots {P0 P' : Vrp} {K : Nat} {N N3 : Net} (S : Searched P0 P' K N N3) (htw : P0.timeWindows = false) :
    DepotConnected N3 ∧ Node.sink ∈ N3.succ .source := by
  obtain ⟨c0, N2, _, hprune, hempty⟩ := S.pruned
  obtain ⟨_, _, e3, _⟩ := emptyRouteStep_same hempty
  rw [htw] at hprune
  have hwf0 : WellFormed { N with cost := c0 } := ⟨S.wf.1, S.wf.2, S.wf.3, S.wf.4, S.wf.5, S.wf.6, S.wf.7⟩
  have key : DepotConnected N2 ∧ Node.sink ∈ N2.succ .source := by
    cases hcs : userCapacities P0.loadCapacity with
    | nil =>
      rw [hcs] at hprune
      simp only [pruneGraph, Bool.false_eq_true, if_false, Except.ok.injEq] at hprune
      subst hprune
      exact ⟨S.connected, S.direct⟩
    | cons c cs =>
      rw [hcs] at hprune
      obtain ⟨succ', h1, h2, h3⟩ := C05_capacity_pruning_exact { N with cost := c0 } c cs hwf0
      rw [hprune] at h1
      cases h1
      refine ⟨?_, ?_⟩
      · intro n hn
        have hmem : Node.cust n ∈ N.customers := mem_customers.2 ⟨hn, by simp, by simp⟩
        have hfit := S.fit _ hmem
        rw [hcs] at hfit
        rcases hfit with h0 | hfit
        · cases h0
        · obtain ⟨k1, k2⟩ := h3 S.demandDepots.1 S.demandDepots.2 _ hmem hfit
          exact ⟨k1 (S.connected n hn).1, k2 (S.connected n hn).2⟩
      · refine (h2 _ _).2 ⟨S.direct, c, by simp, ?_⟩
        rw [S.demandDepots.1, S.demandDepots.2]
        have := S.capsPos c (by rw [hcs]; simp)
        linarith
  refine ⟨?_, by rw [e3]; exact key.2⟩
  intro n hn
  rw [e3]
  have hn2 : N3.nodes = N2.nodes := (emptyRouteStep_same hempty).2.1
  rw [hn2] at hn
  exact key.1 n hn

end Vrpy
