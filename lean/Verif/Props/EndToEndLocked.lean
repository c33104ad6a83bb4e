import Verif.Props.EndToEndCollectLP
import Verif.Props.EndToEndLP
import Verif.Props.Locking
import Verif.Props.Schedule

/-!
# C68: what a first `solve()` with preassigned routes returns
-/

namespace Vrpy

open Spec

/-- A run with preassigned routes is one without them, followed by adding the complete ones to the report. -/
theorem columnGeneration_locked {w : World} {a : SolveArgs} {fuel : Nat} {P' : Vrp} {o o' : Obj} (H' : Net)
    (hmore : P'.moreRoutes = true) (h : Obj.columnGeneration w a fuel P' o = .ok (some o')) :
    ∃ o1 graphs st, Obj.columnGeneration w a fuel
        { P' with
          H := some H'
          preassignments := []
          moreRoutes := true } o = .ok (some o1) ∧
      o'.P.H = P'.H ∧ o'.solution.dropped = o1.solution.dropped ∧
      o1.solution.routes = numbered (graphs.map w.path) ∧ o1.solution.types = numbered (graphs.map Column.vehicleType) ∧
      Merged (P'.H.getD P'.G.toNet) (capacities P'.loadCapacity.toList) (P'.vehicleTypes.getD 0) w.path graphs
        P'.preassignments st ∧ o'.solution.routes = st.1 ∧ o'.solution.types = st.2.1 ∧
      ∃ rs old, Obj.makeSchedule w { P' with initialRoutes := rs } o'.solution old = .ok o'.schedule := by
  unfold Obj.columnGeneration at h ⊢
  cases h1 : P'.initialize P'.G.toNet w.cw fuel with
  | error e => simp [h1] at h
  | ok x =>
  cases x with
  | none => simp [h1] at h
  | some x =>
  obtain ⟨P'', cols⟩ := x
  simp only [h1] at h
  have h1' := h1
  unfold Vrp.initialize at h1
  cases hch : P'.chooseInitial P'.G.toNet w.cw fuel with
  | error e => simp [hch] at h1
  | ok y =>
  cases y with
  | none => simp [hch] at h1
  | some rs =>
  simp only [hch] at h1
  cases hcv : convertRoutes P'.G.toNet (capacities P'.loadCapacity.toList) rs with
  | error e => simp [hcv] at h1
  | ok cols' =>
  simp only [hcv, Except.ok.injEq, Option.some.injEq, Prod.mk.injEq] at h1
  obtain ⟨rfl, rfl⟩ := h1
  have hinit : ({ P' with H := some H', preassignments := [], moreRoutes := true } : Vrp).initialize
      ({ P' with H := some H', preassignments := [], moreRoutes := true } : Vrp).G.toNet w.cw fuel =
      .ok (some ({ P' with H := some H', preassignments := [], moreRoutes := true, initialRoutes := rs }, cols')) := by
    unfold Vrp.initialize
    have : ({ P' with H := some H', preassignments := [], moreRoutes := true } : Vrp).chooseInitial P'.G.toNet w.cw fuel =
        .ok (some rs) := by
      rw [← hch]
      rfl
    simp only [this, hcv]
  simp only [hinit]
  split at h
  · cases h
  rename_i hcreate
  have hcreate' : ({ P' with H := some H', preassignments := [], moreRoutes := true, initialRoutes := rs } : Vrp).master =
      ({ P' with initialRoutes := rs } : Vrp).master := rfl
  simp only [hcreate', hcreate]
  have hcfg : ({ P' with H := some H', preassignments := [], moreRoutes := true, initialRoutes := rs } : Vrp).solveCfg a w.falsy =
      ({ P' with initialRoutes := rs } : Vrp).solveCfg a w.falsy := rfl
  have hst : o.start a { P' with H := some H', preassignments := [], moreRoutes := true, initialRoutes := rs } cols' =
      o.start a { P' with initialRoutes := rs } cols' := by
    simp only [Obj.start, hmore]
  simp only [hcfg, hst]
  cases hrun : Solve.run (({ P' with initialRoutes := rs } : Vrp).solveCfg a w.falsy) w.toEnv a.dive o.graphs fuel
      (o.start a { P' with initialRoutes := rs } cols') with
  | error e => simp [hrun] at h
  | ok z =>
  cases z with
  | none => simp [hrun] at h
  | some z =>
  obtain ⟨st, f⟩ := z
  simp only [hrun] at h ⊢
  split at h
  · cases h
  rename_i o2 hpost
  simp only [Except.ok.injEq, Option.some.injEq] at h
  subst h
  unfold Obj.postProcess at hpost
  simp only [py_bind_ok] at hpost
  obtain ⟨dropped, hdrop, rt, hrt, sch, hsch, hpost⟩ := hpost
  simp only [pure, Except.pure, Except.ok.injEq] at hpost
  unfold bestRoutesAsNodeLists at hrt
  cases hf : P'.preassignments.foldlM (mergeLocked (P'.H.getD P'.G.toNet) (capacities P'.loadCapacity.toList)
      (P'.vehicleTypes.getD 0)) (f.graphs.foldl (addGraph w.path) ([], [], 1)) with
  | error e => simp [hf] at hrt
  | ok m =>
  simp only [hf, Except.ok.injEq] at hrt
  have hM := merged_all hf
  unfold Obj.postProcess
  have hd' : Obj.droppedNodes { P' with H := some H', preassignments := [], moreRoutes := true, initialRoutes := rs }
      o.solution.dropped f = .ok dropped := hdrop
  have hb : bestRoutesAsNodeLists H' (capacities P'.loadCapacity.toList) (P'.vehicleTypes.getD 0) w.path f.graphs [] =
      .ok (numbered (f.graphs.map w.path), numbered (f.graphs.map Column.vehicleType)) := by
    unfold bestRoutesAsNodeLists
    simp only [List.foldlM_nil, addGraphs, pure, Except.pure]
  obtain ⟨sch', hs'⟩ : ∃ sch', Obj.makeSchedule w
      { P' with H := some H', preassignments := [], moreRoutes := true, initialRoutes := rs }
      ⟨numbered (f.graphs.map w.path), numbered (f.graphs.map Column.vehicleType), dropped⟩ o.schedule = .ok sch' := by
    unfold Obj.makeSchedule
    split
    · exact ⟨_, rfl⟩
    · have hform : ∀ s : Schedule, s.routes = numbered (f.graphs.map w.path) →
          s.types = numbered (f.graphs.map Column.vehicleType) → s.formulate = .ok s.lp := by
        intro s e1 e2
        refine Schedule.C30_formulate.2 (Or.inr (Or.inr ?_))
        rintro ⟨i, r⟩ hir
        rw [e1] at hir
        obtain ⟨h1, h2⟩ := (mem_numbered _ _ _).1 hir
        rw [List.getElem?_map] at h2
        obtain ⟨c, hc, _⟩ := Option.map_eq_some_iff.1 h2
        refine ⟨c.vehicleType, ?_⟩
        rw [e2]
        rw [dget_numbered, if_pos h1, List.getElem?_map, hc]
        rfl
      dsimp only
      rw [hform _ rfl rfl]
      exact ⟨_, rfl⟩
  simp only [hd', Option.getD_some, hb, hs', bind, Except.bind, pure, Except.pure]
  refine ⟨_, f.graphs, m, rfl, ?_, ?_, rfl, rfl, hM, ?_, ?_, rs, o.schedule, ?_⟩
  · rw [← hpost]
  · rw [← hpost]
  · rw [← hpost, ← hrt]
  · rw [← hpost, ← hrt]
  · rw [← hpost]
    exact hsch

/-- The routes form a plan for the problem `P` with preassigned routes `Q`.  The report consists of the routes `free` found by
the solver and the routes `locked`.  The latter are the complete routes of `Q`, unchanged and in the order given; each gets
a cheapest vehicle that can carry its load (if there is one for less than 10000000000).  The former do not visit customers
of complete preassigned routes; apart from that they are as in `PlanFor`: they start at Source, visit different
customers, end at Sink, drive along arcs of the user's graph and have the property `F` for their vehicle type; every
customer that is not on a complete preassigned route is on exactly one of them or dropped.  Only these routes count when
`num_vehicles` is respected. -/
structure Spec.PlanWithLocked (P : Vrp) (Q : List (List Node)) (K : Nat) (F : Nat → List Node → Prop) (S : Solution)
    (free locked : List (Nat × List Node)) : Prop where
  all : S.routes = free ++ locked
  keys : (S.routes.map Prod.fst).Nodup
  verbatim : locked.map Prod.snd = Q.filter (fun r => r.head? = some .source ∧ r.getLast? = some .sink)
  simple : ∀ i r, (i, r) ∈ locked → ∃ mid, r = routeOf mid ∧ (∀ v ∈ mid, (∃ n, v = .cust n) ∧ v ∈ P.G.nodes) ∧
    Along (UserArc P.G) r
  vehicles : ∀ i r k, (i, r) ∈ locked → dget S.types i = some k →
    k < K ∧ WithinCapacity (userCapacities P.loadCapacity) k ((stops r).map (userDemand P.G)).sum
  cheapest : ∀ i r j, (i, r) ∈ locked → j < K →
    WithinCapacity (userCapacities P.loadCapacity) j ((stops r).map (userDemand P.G)).sum →
    legSum (userArcCost P j) r < 10000000000 →
    ∃ k, dget S.types i = some k ∧ legSum (userArcCost P k) r ≤ legSum (userArcCost P j) r
  routes : ∀ i r, (i, r) ∈ free → ∃ mid, r = routeOf mid ∧ mid.Nodup ∧
    (∀ v ∈ mid, (∃ n, v = .cust n) ∧ v ∈ P.G.nodes ∧ ∀ p ∈ Q, Complete p → v ∉ p) ∧ Along (UserArc P.G) r ∧
    ∃ k < K, dget S.types i = some k ∧ F k r
  once : ∀ n, Node.cust n ∈ P.G.nodes → (∀ p ∈ Q, Complete p → .cust n ∉ p) → Node.cust n ∉ S.dropped →
    (free.map (fun p => p.2.count (.cust n))).sum = 1
  dropped : ∀ v ∈ S.dropped, (∃ n, v = .cust n) ∧ v ∈ P.G.nodes ∧ ∀ i r, (i, r) ∈ S.routes → v ∉ r
  penalty : P.dropPenalty = 0 → S.dropped = []
  fleet : ∀ k n, (userFleet P.numVehicles)[k]? = some n →
    (free.filter (fun p => dget S.types p.1 = some k)).length ≤ n ∧
    (P.useAllVehicles = true → (free.filter (fun p => dget S.types p.1 = some k)).length = n)

/-- A vehicle can carry the route, for less than 10000000000. -/
def Spec.FitsSomeVehicle (P : Vrp) (K : Nat) (r : List Node) : Prop :=
  ∃ j < K, WithinCapacity (userCapacities P.loadCapacity) j ((stops r).map (userDemand P.G)).sum ∧
    legSum (userArcCost P j) r < 10000000000

/-- What `best_value` is, when every complete preassigned route fits some vehicle. -/
def Spec.ValueWithLocked (P : Vrp) (Q : List (List Node)) (K : Nat) (N : Net) (S : Solution) : Prop :=
  (∀ r ∈ Q, Complete r → FitsSomeVehicle P K r) →
    bestValue N false P.dropPenalty S = .ok ((userCosts P S).sum + P.dropPenalty * S.dropped.length) ∧
    (S.routes ≠ [] → ∃ m, IsLargest m (userCosts P S) ∧
      bestValue N true P.dropPenalty S = .ok (m + P.dropPenalty * S.dropped.length))

theorem complete_split {r : List Node} (h : Complete r) : r = routeOf (interior r) := by
  obtain ⟨h1, h2⟩ := h
  cases r with
  | nil => simp at h1
  | cons a r =>
    simp only [List.head?_cons, Option.some.injEq] at h1
    subst h1
    rcases List.eq_nil_or_concat r with rfl | ⟨l, b, rfl⟩
    · simp at h2
    · simp only [List.concat_eq_append] at h2 ⊢
      have hb : b = .sink := by simpa [List.getLast?_cons] using h2
      subst hb
      simp [interior, routeOf]

theorem mem_lockedNodes {Q : List (List Node)} {n : Nat} :
    Node.cust n ∈ lockedNodes Q ↔ ∃ r ∈ Q, Complete r ∧ Node.cust n ∈ r := by
  simp only [lockedNodes, List.mem_flatMap, List.mem_filter, isComplete_iff]
  constructor
  · rintro ⟨r, ⟨hr, hc⟩, hn⟩
    refine ⟨r, hr, hc, ?_⟩
    rw [complete_split hc]
    simp [routeOf, hn]
  · rintro ⟨r, hr, hc, hn⟩
    refine ⟨r, ⟨hr, hc⟩, ?_⟩
    rw [complete_split hc] at hn
    simpa [routeOf] using hn

/-- What is known about a complete preassigned route that was accepted. -/
theorem locked_facts {P0 P' : Vrp} {Q : List (List Node)} {K : Nat} {N : Net} (R : Reported P0 P' Q K N) {r : List Node}
    (hr : r ∈ Q) (hc : Complete r) :
    (∀ v ∈ interior r, (∃ n, v = .cust n) ∧ v ∈ P0.G.nodes) ∧ Along (fun u v => v ∈ N.succ u) r ∧
      Along (UserArc P0.G) r ∧ load N r = ((stops r).map (userDemand P0.G)).sum ∧
      ∀ k < K, Spec.cost N k r = legSum (userArcCost P0 k) r := by
  have hal := R.along r hr
  have hal' := hal
  rw [along_iff] at hal'
  have hlen : 2 ≤ r.length := by
    rw [complete_split hc]
    simp [routeOf]
  have hin : ∀ v ∈ interior r, (∃ n, v = .cust n) ∧ v ∈ P0.G.nodes := by
    intro v hv
    have hL : v ∈ lockedNodes Q := by
      simp only [lockedNodes, List.mem_flatMap, List.mem_filter, isComplete_iff]
      exact ⟨r, ⟨hr, hc⟩, hv⟩
    have hvr : v ∈ r := by
      rw [complete_split hc]
      simp [routeOf, hv]
    refine ⟨?_, ?_⟩
    · cases v with
      | source => exact absurd hL R.depots.1
      | sink => exact absurd hL R.depots.2
      | cust n => exact ⟨n, rfl⟩
    · obtain ⟨e, he, hev⟩ := (mem_graphNodes (consecutive r) v).1 ((mem_graphNodes_consecutive hlen v).2 hvr)
      have := R.wf.edge_mem _ _ (hal' e.1 e.2 he)
      rw [← R.userNodes]
      rcases hev with rfl | rfl
      · exact this.1
      · exact this.2
  have hcust : ∀ v ∈ interior r, v ∈ N.customers := by
    intro v hv
    obtain ⟨⟨n, rfl⟩, h⟩ := hin v hv
    exact mem_customers.2 ⟨by rw [R.userNodes]; exact h, by simp, by simp⟩
  refine ⟨hin, hal, (along_iff _ _).2 (fun u v huv => R.userArcs u v (hal' u v huv)), ?_, ?_⟩
  · have hs : stops r = interior r := by
      conv_lhs => rw [complete_split hc]
      exact stops_routeOf hcust
    rw [hs]
    conv_lhs => rw [complete_split hc]
    have : (interior r).map N.demand = (interior r).map (userDemand P0.G) :=
      List.map_congr_left (fun v hv => R.demand v (hcust v hv))
    simp [load, routeOf, R.demandDepots, this]
  · intro k hk
    exact legSum_congr (fun u v huv => R.arcCost u v (hal' u v huv) k hk)

theorem without_nodes {P : Vrp} {L : List Node} {v : Node} : v ∈ (withoutNodes P L).G.nodes ↔ v ∈ P.G.nodes ∧ v ∉ L := by
  simp [withoutNodes, DiGraph.removeNodes]

/-- The part of a plan with preassigned routes that is about single routes. -/
structure Spec.RoutesWithLocked (P : Vrp) (Q : List (List Node)) (K : Nat) (F : Nat → List Node → Prop) (S : Solution)
    (free locked : List (Nat × List Node)) : Prop where
  all : S.routes = free ++ locked
  keys : (S.routes.map Prod.fst).Nodup
  verbatim : locked.map Prod.snd = Q.filter (fun r => r.head? = some .source ∧ r.getLast? = some .sink)
  simple : ∀ i r, (i, r) ∈ locked → ∃ mid, r = routeOf mid ∧ (∀ v ∈ mid, (∃ n, v = .cust n) ∧ v ∈ P.G.nodes) ∧
    Along (UserArc P.G) r
  vehicles : ∀ i r k, (i, r) ∈ locked → dget S.types i = some k →
    k < K ∧ WithinCapacity (userCapacities P.loadCapacity) k ((stops r).map (userDemand P.G)).sum
  cheapest : ∀ i r j, (i, r) ∈ locked → j < K →
    WithinCapacity (userCapacities P.loadCapacity) j ((stops r).map (userDemand P.G)).sum →
    legSum (userArcCost P j) r < 10000000000 →
    ∃ k, dget S.types i = some k ∧ legSum (userArcCost P k) r ≤ legSum (userArcCost P j) r
  routes : ∀ i r, (i, r) ∈ free → ∃ mid, r = routeOf mid ∧ mid.Nodup ∧
    (∀ v ∈ mid, (∃ n, v = .cust n) ∧ v ∈ P.G.nodes ∧ ∀ p ∈ Q, Complete p → v ∉ p) ∧ Along (UserArc P.G) r ∧
    ∃ k < K, dget S.types i = some k ∧ F k r

theorem not_on_locked {Q : List (List Node)} {v : Node} (h : ∃ n, v = Node.cust n) (hv : v ∉ lockedNodes Q) :
    ∀ p ∈ Q, Complete p → v ∉ p := by
  obtain ⟨n, rfl⟩ := h
  exact fun p hp hc hn => hv (mem_lockedNodes.2 ⟨p, hp, hc, hn⟩)

theorem not_locked {Q : List (List Node)} {n : Nat} (h : ∀ p ∈ Q, Complete p → Node.cust n ∉ p) :
    Node.cust n ∉ lockedNodes Q := by
  rw [mem_lockedNodes]
  rintro ⟨r, hr, hc, hnr⟩
  exact h r hr hc hnr

/-- Adding the complete preassigned routes to routes for the problem without their customers. -/
theorem locked_routes_merge {P0 P' : Vrp} {Q : List (List Node)} {K : Nat} {N : Net} {F F' : Nat → List Node → Prop}
    {path : Column → List Node} {graphs : List Column} {st : Dict Nat (List Node) × Dict Nat Nat × Nat} {S1 S' : Solution}
    (R : Reported P0 P' Q K N)
    (hF : ∀ k mid, (∀ v ∈ mid, (∃ n, v = .cust n) ∧ v ∈ P0.G.nodes ∧ v ∉ lockedNodes Q) → F k (routeOf mid) → F' k (routeOf mid))
    (hp : ∀ i r, (i, r) ∈ S1.routes → ∃ mid, r = routeOf mid ∧ mid.Nodup ∧
      (∀ v ∈ mid, (∃ n, v = .cust n) ∧ v ∈ (withoutNodes P0 (lockedNodes Q)).G.nodes) ∧
      Along (UserArc (withoutNodes P0 (lockedNodes Q)).G) r ∧ ∃ k < K, dget S1.types i = some k ∧ F k r)
    (hr1 : S1.routes = numbered (graphs.map path)) (ht1 : S1.types = numbered (graphs.map Column.vehicleType))
    (hM : Merged N (userCapacities P0.loadCapacity) K path graphs Q st)
    (hr : S'.routes = st.1) (ht : S'.types = st.2.1) :
    (∃ locked, RoutesWithLocked P0 Q K F' S' S1.routes locked) ∧
      (∀ i r, (i, r) ∈ S1.routes → dget S'.types i = dget S1.types i) ∧ ValueWithLocked P0 Q K N S' := by
  set locked := (Q.filter isComplete).zipIdx (graphs.length + 1) |>.map (fun p => (p.2, p.1)) with hlocked
  have hsplit : S'.routes = S1.routes ++ locked := by
    rw [hr, hM.routes, hr1, hlocked]
    unfold numbered
    rw [List.zipIdx_append, List.map_append, List.length_map, Nat.add_comm 1]
  have hnotIn : ∀ v, (∃ n, v = Node.cust n) → v ∉ lockedNodes Q → ∀ p ∈ Q, Complete p → v ∉ p := fun _ => not_on_locked
  have htold : ∀ i r, (i, r) ∈ S1.routes → dget S'.types i = dget S1.types i := by
    intro i r hir
    rw [hr1] at hir
    obtain ⟨_, hi⟩ := (mem_numbered _ _ _).1 hir
    have hlt := (List.getElem?_eq_some_iff.1 hi).1
    rw [List.length_map] at hlt
    rw [ht, ht1]
    exact hM.type_old i (by omega)
  have hmemlocked : ∀ i r, (i, r) ∈ locked → r ∈ Q ∧ Complete r ∧
      lockedType N (userCapacities P0.loadCapacity) K r = .ok (dget S'.types i) := by
    intro i r hir
    rw [hlocked] at hir
    simp only [List.mem_map, Prod.mk.injEq, Prod.exists] at hir
    obtain ⟨r', i', hmem, rfl, rfl⟩ := hir
    obtain ⟨hle, hget⟩ := List.mk_mem_zipIdx_iff_le_and_getElem?_sub.1 hmem
    have hin := List.mem_filter.1 (List.mem_of_getElem? hget)
    refine ⟨hin.1, (isComplete_iff _).1 hin.2, ?_⟩
    rw [ht, hM.type_locked _ _ hget]
    congr 2
    omega
  have hroutes : ∀ i r, (i, r) ∈ S1.routes → ∃ mid, r = routeOf mid ∧ mid.Nodup ∧
      (∀ v ∈ mid, (∃ n, v = .cust n) ∧ v ∈ P0.G.nodes ∧ ∀ p ∈ Q, Complete p → v ∉ p) ∧ Along (UserArc P0.G) r ∧
      ∃ k < K, dget S'.types i = some k ∧ F' k r := by
    intro i r hir
    obtain ⟨mid, rfl, m1, m2, m3, k, hk, m4, m5⟩ := hp i r hir
    have hm : ∀ v ∈ mid, (∃ n, v = .cust n) ∧ v ∈ P0.G.nodes ∧ v ∉ lockedNodes Q := by
      intro v hv
      have := List.mem_filter.1 (m2 v hv).2
      exact ⟨(m2 v hv).1, this.1, by simpa using this.2⟩
    refine ⟨mid, rfl, m1, fun v hv => ⟨(hm v hv).1, (hm v hv).2.1, hnotIn v (hm v hv).1 (hm v hv).2.2⟩, ?_, k, hk, ?_, hF k mid hm m5⟩
    · rw [along_iff] at m3 ⊢
      intro u v huv
      rcases m3 u v huv with h | h
      · exact Or.inl (mem_removeNodes_user.1 h).1
      · exact Or.inr h
    · rw [htold _ _ hir]
      exact m4
  have hcap : ∀ (c : List ℚ) k x, WithinCapacity c k x → (c ≠ [] → x ≤ c.getD k 0) := by
    intro c k x hw hne
    obtain ⟨y, hy, hle⟩ := hw hne
    simpa [List.getD_eq_getElem?_getD, hy] using hle
  have hplan' : RoutesWithLocked P0 Q K F' S' S1.routes locked := by
    refine ⟨hsplit, ?_, ?_, ?_, ?_, ?_, hroutes⟩
    · rw [hr, hM.routes]
      exact numbered_nodup _
    · rw [hlocked, List.map_map]
      have : (Prod.snd ∘ fun p : List Node × Nat => (p.2, p.1)) = Prod.fst := rfl
      rw [this, List.zipIdx_map_fst]
      refine List.filter_congr (fun r _ => ?_)
      simp [isComplete]
    · intro i r hir
      obtain ⟨l1, l2, _⟩ := hmemlocked i r hir
      obtain ⟨e1, _, e3, _⟩ := locked_facts R l1 l2
      exact ⟨_, complete_split l2, e1, e3⟩
    · intro i r k hir hk
      obtain ⟨l1, l2, l3⟩ := hmemlocked i r hir
      obtain ⟨_, _, _, e4, _⟩ := locked_facts R l1 l2
      rw [hk] at l3
      obtain ⟨x1, x2, _⟩ := (lockedType_ok l3).1 k rfl
      refine ⟨x1, fun hne => ?_⟩
      obtain ⟨y1, y2⟩ := x2 hne
      rw [e4] at y2
      exact ⟨_, List.getElem?_eq_getElem y1, by simpa [List.getD_eq_getElem?_getD, y1] using y2⟩
    · intro i r j hir hj hw hlt
      obtain ⟨l1, l2, l3⟩ := hmemlocked i r hir
      obtain ⟨_, _, _, e4, e5⟩ := locked_facts R l1 l2
      obtain ⟨k, hk, hle⟩ := (lockedType_ok l3).2 j hj (by rw [e4]; exact hcap _ _ _ hw) (by rw [e5 j hj]; exact hlt)
      have hkK := ((lockedType_ok l3).1 k hk).1
      rw [e5 j hj, e5 k hkK] at hle
      exact ⟨k, hk, hle⟩
  refine ⟨⟨_, hplan'⟩, htold, ?_⟩
  intro hfit
  have htyped : ∀ i r, (i, r) ∈ S'.routes → ∃ k < K, dget S'.types i = some k ∧
      Along (fun u v => v ∈ N.succ u) r := by
    intro i r hir
    rw [hsplit] at hir
    rcases List.mem_append.1 hir with hir | hir
    · obtain ⟨mid, rfl, _, hmid, hal, k, hk, hdk, _⟩ := hroutes i r hir
      refine ⟨k, hk, hdk, ?_⟩
      rw [along_iff] at hal ⊢
      intro u v huv
      have hin : ∀ x ∈ routeOf mid, x ∈ P0.G.nodes := by
        intro x hx
        simp only [routeOf, List.mem_cons, List.mem_append, List.not_mem_nil, or_false] at hx
        rcases hx with rfl | hx | rfl
        · rw [← R.userNodes]; exact R.wf.source_mem
        · exact (hmid x hx).2.1
        · rw [← R.userNodes]; exact R.wf.sink_mem
      exact R.arcs u v (hin u (fst_mem_of_consecutive huv)) (hin v (snd_mem_of_consecutive huv)) (hal u v huv)
    · obtain ⟨l1, l2, l3⟩ := hmemlocked i r hir
      obtain ⟨_, e2, _, e4, e5⟩ := locked_facts R l1 l2
      obtain ⟨j, hj, hw, hlt⟩ := hfit r l1 l2
      obtain ⟨k, hk, _⟩ := hplan'.cheapest i r j hir hj hw hlt
      exact ⟨k, (hplan'.vehicles i r k hir hk).1, hk, e2⟩
  have hval : ∀ span, (span = true → S'.routes ≠ []) → ∃ v, bestValue N span P0.dropPenalty S' = .ok v := by
    intro span hne
    refine C26_value_defined ?_ hne
    intro i r hir
    obtain ⟨k, hk, hdk, hal⟩ := htyped i r hir
    rw [along_iff] at hal
    exact ⟨k, hdk, (along_iff _ _).2 (fun u v huv => ⟨hal u v huv, by rw [R.costs u v (hal u v huv)]; exact hk⟩)⟩
  have hcosts : userCosts P0 S' = routeCosts N S' := by
    refine List.map_congr_left (fun p hpm => ?_)
    obtain ⟨k, hk, hdk, hal⟩ := htyped p.1 p.2 hpm
    rw [along_iff] at hal
    rw [hdk]
    exact (legSum_congr (fun u v huv => R.arcCost u v (hal u v huv) k hk)).symm
  constructor
  · obtain ⟨v, hv⟩ := hval false (fun h => (by cases h))
    rw [hv, (C26_best_value hv).1 rfl, hcosts]
  · intro hne
    obtain ⟨v, hv⟩ := hval true (fun _ => hne)
    obtain ⟨m, hm, rfl⟩ := (C26_best_value hv).2 rfl
    exact ⟨m, by rw [hcosts]; exact hm, hv⟩

/-- Adding the complete preassigned routes to a plan for the problem without their customers. -/
theorem locked_merge {P0 P' : Vrp} {Q : List (List Node)} {K : Nat} {N : Net} {F F' : Nat → List Node → Prop}
    {path : Column → List Node} {graphs : List Column} {st : Dict Nat (List Node) × Dict Nat Nat × Nat} {S1 S' : Solution}
    (R : Reported P0 P' Q K N)
    (hF : ∀ k mid, (∀ v ∈ mid, (∃ n, v = .cust n) ∧ v ∈ P0.G.nodes ∧ v ∉ lockedNodes Q) → F k (routeOf mid) → F' k (routeOf mid))
    (hp : PlanFor (withoutNodes P0 (lockedNodes Q)) K F S1)
    (hr1 : S1.routes = numbered (graphs.map path)) (ht1 : S1.types = numbered (graphs.map Column.vehicleType))
    (hd : S'.dropped = S1.dropped) (hM : Merged N (userCapacities P0.loadCapacity) K path graphs Q st)
    (hr : S'.routes = st.1) (ht : S'.types = st.2.1) :
    (∃ locked, PlanWithLocked P0 Q K F' S' S1.routes locked) ∧ ValueWithLocked P0 Q K N S' := by
  obtain ⟨⟨locked, hL⟩, htold, hV⟩ := locked_routes_merge R hF hp.routes hr1 ht1 hM hr ht
  refine ⟨⟨locked, hL.all, hL.keys, hL.verbatim, hL.simple, hL.vehicles, hL.cheapest, hL.routes, ?_, ?_, ?_, ?_⟩, hV⟩
  · intro n hn hno hnd
    exact hp.once n (without_nodes.2 ⟨hn, not_locked hno⟩) (by rw [← hd]; exact hnd)
  · intro v hv
    rw [hd] at hv
    obtain ⟨d1, d2, d3⟩ := hp.dropped v hv
    obtain ⟨d2, d4⟩ := without_nodes.1 d2
    refine ⟨d1, d2, fun i r hir => ?_⟩
    rw [hL.all] at hir
    rcases List.mem_append.1 hir with hir | hir
    · exact d3 i r hir
    · have : r ∈ locked.map Prod.snd := List.mem_map.2 ⟨_, hir, rfl⟩
      rw [hL.verbatim] at this
      obtain ⟨l1, l2⟩ := List.mem_filter.1 this
      exact not_on_locked d1 d4 r l1 (by simpa [Complete] using l2)
  · intro h0
    rw [hd]
    exact hp.penalty h0
  · intro k n hk
    have heq : S1.routes.filter (fun p => decide (dget S'.types p.1 = some k)) =
        S1.routes.filter (fun p => decide (dget S1.types p.1 = some k)) :=
      List.filter_congr (fun p hp => by rw [htold p.1 p.2 hp])
    rw [heq]
    exact hp.fleet k n hk

/-- The plan of a run with preassigned routes, from the plan of a run without them for the problem without their customers. -/
theorem locked_plan {w : World} {a : SolveArgs} {fuel : Nat} {P0 P' : Vrp} {o o' : Obj} {Q : List (List Node)} {K : Nat} {N : Net}
    {F F' : Nat → List Node → Prop} (R : Reported P0 P' Q K N)
    (hfree : ∃ n, Node.cust n ∈ P0.G.nodes ∧ ∀ p ∈ Q, Complete p → Node.cust n ∉ p)
    (hF : ∀ k mid, (∀ v ∈ mid, (∃ n, v = .cust n) ∧ v ∈ P0.G.nodes ∧ v ∉ lockedNodes Q) → F k (routeOf mid) → F' k (routeOf mid))
    (hplan : ∀ o1, Obj.columnGeneration w a fuel
        { P' with
          H := some (N.removeNodes (lockedNodes Q))
          preassignments := []
          moreRoutes := true } o = .ok (some o1) → PlanFor (withoutNodes P0 (lockedNodes Q)) K F o1.solution)
    (h : Obj.columnGeneration w a fuel P' o = .ok (some o')) :
    o'.P.H = some N ∧ (∃ free locked, PlanWithLocked P0 Q K F' o'.solution free locked) ∧
      ValueWithLocked P0 Q K N o'.solution := by
  have hmore : P'.moreRoutes = true := by
    obtain ⟨n, h1, h2⟩ := hfree
    refine R.more ⟨n, h1, ?_⟩
    rw [mem_lockedNodes]
    rintro ⟨r, hr, hc, hn⟩
    exact h2 r hr hc hn
  obtain ⟨o1, graphs, st, hrun, hH, hd, hr1, ht1, hM, hr, ht, _⟩ :=
    columnGeneration_locked (N.removeNodes (lockedNodes Q)) hmore h
  have hp := hplan o1 hrun
  rw [R.reports, R.caps, R.types, R.preassigned] at hM
  simp only [Option.getD_some] at hM
  obtain ⟨⟨locked, m1⟩, m2⟩ := locked_merge R hF hp hr1 ht1 hd hM hr ht
  exact ⟨by rw [hH, R.reports], ⟨_, locked, m1⟩, m2⟩

/-! ## The problem without the customers of complete preassigned routes -/

theorem without_wf {P : Vrp} {L : List Node} (h : P.G.WF) : (withoutNodes P L).G.WF where
  nodes_nodup := h.nodes_nodup.sublist List.filter_sublist
  succ_nodup := by
    intro u
    simp only [withoutNodes, DiGraph.removeNodes]
    split
    · simp
    · exact (h.succ_nodup u).sublist List.filter_sublist
  succ_mem := by
    intro u v hv
    obtain ⟨h1, h2, h3⟩ := mem_removeNodes_user.1 hv
    exact ⟨without_nodes.2 ⟨(h.succ_mem u v h1).1, h2⟩, without_nodes.2 ⟨(h.succ_mem u v h1).2, h3⟩⟩

theorem without_costs {P : Vrp} {L : List Node} (h : CostsAsDocumented P) : CostsAsDocumented (withoutNodes P L) := by
  intro hm u v hv
  exact h hm u v (mem_removeNodes_user.1 hv).1

theorem without_capacitatedData {P : Vrp} {L : List Node} (h : CapacitatedData P) (hfree : ∃ n, Node.cust n ∈ P.G.nodes ∧ Node.cust n ∉ L) :
    CapacitatedData (withoutNodes P L) where
  wf := without_wf h.wf
  customer := by
    obtain ⟨n, h1, h2⟩ := hfree
    exact ⟨n, without_nodes.2 ⟨h1, h2⟩⟩
  costs := without_costs h.costs
  demand := fun v hv => h.demand v (without_nodes.1 hv).1
  service := h.service
  timeWindows := h.timeWindows
  pickupDelivery := h.pickupDelivery
  distributionCollection := h.distributionCollection
  oneCapacity := h.oneCapacity

theorem without_capacitated {P : Vrp} {L : List Node} (h : Capacitated P) (hfree : ∃ n, Node.cust n ∈ P.G.nodes ∧ Node.cust n ∉ L) :
    Capacitated (withoutNodes P L) :=
  ⟨without_capacitatedData h.toCapacitatedData hfree, h.periodic⟩

theorem without_variantData {P : Vrp} {L : List Node} (h : VariantData P)
    (hfree : ∃ n, Node.cust n ∈ P.G.nodes ∧ Node.cust n ∉ L) (hs : Node.source ∉ L) :
    VariantData (withoutNodes P L) where
  wf := without_wf h.wf
  customer := by
    obtain ⟨n, h1, h2⟩ := hfree
    exact ⟨n, without_nodes.2 ⟨h1, h2⟩⟩
  costs := without_costs h.costs
  demand := fun v hv => h.demand v (without_nodes.1 hv).1
  service := h.service
  either := h.either
  source := by
    intro htw
    obtain ⟨h1, h2⟩ := h.source htw
    refine ⟨?_, h2⟩
    show (P.G.nodes.filter (fun v => decide (v ∉ L))).head? = some .source
    cases hn : P.G.nodes with
    | nil => rw [hn] at h1; cases h1
    | cons x l =>
      rw [hn] at h1
      simp only [List.head?_cons, Option.some.injEq] at h1
      subst h1
      simp [hs]
  windows := fun htw v hv => h.windows htw v (without_nodes.1 hv).1
  collect := fun hdc v hv => h.collect hdc v (without_nodes.1 hv).1
  pickupDelivery := h.pickupDelivery
  oneCapacity := h.oneCapacity

theorem without_variant {P : Vrp} {L : List Node} (h : WindowedOrCollecting P)
    (hfree : ∃ n, Node.cust n ∈ P.G.nodes ∧ Node.cust n ∉ L) (hs : Node.source ∉ L) :
    WindowedOrCollecting (withoutNodes P L) :=
  ⟨without_variantData h.toVariantData hfree hs, h.periodic⟩

theorem userTime_without {P : Vrp} {L : List Node} {u v : Node} (hu : u ∉ L) (hv : v ∉ L) :
    userTime (withoutNodes P L).G u v = userTime P.G u v := by
  have : v ∈ (withoutNodes P L).G.succ u ↔ v ∈ P.G.succ u := by
    show v ∈ (P.G.removeNodes L).succ u ↔ _
    rw [mem_removeNodes_user]
    exact ⟨fun h => h.1, fun h => ⟨h, hu, hv⟩⟩
  unfold userTime
  simp only [this]
  rfl

theorem userArrivals_without {P : Vrp} {L : List Node} (r : List Node) (t : ℚ) (u : Node) (hu : u ∉ L) (hr : ∀ v ∈ r, v ∉ L) :
    userArrivals (withoutNodes P L).G t u r = userArrivals P.G t u r := by
  induction r generalizing t u with
  | nil => rfl
  | cons v r ih =>
    have hv := hr v (by simp)
    simp only [userArrivals, userTime_without hu hv]
    rw [ih _ _ hv (fun x hx => hr x (by simp [hx]))]
    rfl

theorem userDuration_without {P : Vrp} {L : List Node} {r : List Node} (hr : ∀ v ∈ r, v ∉ L) :
    userDuration (withoutNodes P L).G r = userDuration P.G r := by
  unfold userDuration
  have h : legSum (userTime (withoutNodes P L).G) r = legSum (userTime P.G) r :=
    legSum_congr (fun u v huv => userTime_without (hr u (fst_mem_of_consecutive huv)) (hr v (snd_mem_of_consecutive huv)))
  rw [h]
  rfl

theorem userOnTime_without {P : Vrp} {L : List Node} {r : List Node} (hr : ∀ v ∈ r, v ∉ L) :
    UserOnTime (withoutNodes P L).G r ↔ UserOnTime P.G r := by
  cases r with
  | nil => rfl
  | cons u r =>
    simp only [UserOnTime]
    rw [userArrivals_without r _ u (hr u (by simp)) (fun v hv => hr v (by simp [hv]))]
    rfl

theorem routeOf_not_mem {L mid : List Node} (hs : Node.source ∉ L) (ht : Node.sink ∉ L) (hm : ∀ v ∈ mid, v ∉ L) :
    ∀ v ∈ routeOf mid, v ∉ L := by
  intro v hv
  simp only [routeOf, List.mem_cons, List.mem_append, List.not_mem_nil, or_false] at hv
  rcases hv with rfl | hv | rfl
  · exact hs
  · exact hm v hv
  · exact ht

theorem roundTrips_without {P : Vrp} {L : List Node} (hs : Node.source ∉ L) (ht : Node.sink ∉ L) (h : RoundTripsFit P) :
    RoundTripsFit (withoutNodes P L) := by
  intro n hn
  obtain ⟨h1, h2⟩ := without_nodes.1 hn
  rw [userDuration_without (routeOf_not_mem hs ht (by simpa using h2))]
  exact h n h1

theorem limits_without {P : Vrp} {L : List Node} {k : Nat} {mid : List Node} (hs : Node.source ∉ L) (ht : Node.sink ∉ L)
    (hm : ∀ v ∈ mid, v ∉ L) (h : RouteLimits (withoutNodes P L) k mid) : RouteLimits P k mid where
  stops := h.stops
  load := h.load
  windows := fun htw => (userOnTime_without (routeOf_not_mem hs ht hm)).1 (h.windows htw)
  goods := h.goods
  duration := by
    intro hfit
    rw [← userDuration_without (L := L) (routeOf_not_mem hs ht hm)]
    exact h.duration (roundTrips_without hs ht hfit)

theorem limits_to_without {P : Vrp} {L : List Node} {k : Nat} {mid : List Node} (hs : Node.source ∉ L) (ht : Node.sink ∉ L)
    (hm : ∀ v ∈ mid, v ∉ L) (h : RouteLimits P k mid) (hd : Within P.duration.limit (userDuration P.G (routeOf mid))) :
    RouteLimits (withoutNodes P L) k mid where
  stops := h.stops
  load := h.load
  windows := fun htw => (userOnTime_without (routeOf_not_mem hs ht hm)).2 (h.windows htw)
  goods := h.goods
  duration := by
    intro _
    rw [userDuration_without (routeOf_not_mem hs ht hm)]
    exact hd

theorem fresh_customer (l : List Node) : ∃ b, ∀ n, Node.cust n ∈ l → n < b := by
  induction l with
  | nil => exact ⟨0, fun n hn => (by cases hn)⟩
  | cons v l ih =>
    obtain ⟨b, hb⟩ := ih
    cases v with
    | source => exact ⟨b, fun n hn => hb n (by simpa using hn)⟩
    | sink => exact ⟨b, fun n hn => hb n (by simpa using hn)⟩
    | cust m =>
      refine ⟨max b (m + 1), fun n hn => ?_⟩
      rcases List.mem_cons.1 hn with h | h
      · simp only [Node.cust.injEq] at h
        omega
      · have := hb n h
        omega

theorem Spec.OptionDuals.without {env : Env} {P : Vrp} (h : OptionDuals env P) (L : List Node) : OptionDuals env (withoutNodes P L) :=
  ⟨h.span, h.fleet⟩

theorem without_cost_nonneg {P : Vrp} {L : List Node} (hwf : P.G.WF)
    (h : ∀ k u v, UserArc P.G u v → 0 ≤ userArcCost P k u v) :
    ∀ k u v, UserArc (withoutNodes P L).G u v → 0 ≤ userArcCost (withoutNodes P L) k u v := by
  have big : ∀ k, 0 ≤ 10000000000 + userFixedCost P.fixedCost k := by
    intro k
    obtain ⟨b, hb⟩ := fresh_customer P.G.nodes
    have h1 := h k .source (.cust b) (Or.inr (Or.inl ⟨rfl, b, rfl⟩))
    have h2 : Node.cust b ∉ P.G.succ .source := fun hm => absurd (hb b (hwf.succ_mem _ _ hm).2) (by omega)
    simpa [userArcCost, h2] using h1
  intro k u v huv
  by_cases huL : u ∈ L ∨ v ∈ L
  · have hno : v ∉ (withoutNodes P L).G.succ u := by
      intro hm
      obtain ⟨_, h2, h3⟩ := mem_removeNodes_user.1 hm
      rcases huL with h | h
      · exact h2 h
      · exact h3 h
    unfold userArcCost
    rw [if_neg hno]
    split
    · exact le_refl _
    · split
      · exact big k
      · norm_num
  · push Not at huL
    rw [userArcCost_without huL.1 huL.2]
    refine h k u v ?_
    rcases huv with huv | huv
    · exact Or.inl (mem_removeNodes_user.1 huv).1
    · exact Or.inr huv

theorem without_nonnegative {P : Vrp} {L : List Node} (hwf : P.G.WF) (hs : Node.source ∉ L) (ht : Node.sink ∉ L)
    (h : NonnegativeData P) : NonnegativeData (withoutNodes P L) where
  service := fun v hv => h.service v (without_nodes.1 hv).1
  time := fun u v hv => h.time u v (mem_removeNodes_user.1 hv).1
  cost := without_cost_nonneg hwf h.cost

theorem without_travel {P : Vrp} {L : List Node} (h : TravelTakesTime P) : TravelTakesTime (withoutNodes P L) := by
  intro n m hm
  obtain ⟨h1, h2, h3⟩ := mem_removeNodes_user.1 hm
  rw [userTime_without h2 h3]
  exact h n m h1

/-! ## Runs -/

/-- The customers that `solve()` still has to plan. -/
def Spec.SomeCustomerFree (P : Vrp) (Q : List (List Node)) : Prop :=
  ∃ n, Node.cust n ∈ P.G.nodes ∧ ∀ p ∈ Q, Complete p → Node.cust n ∉ p

theorem free_nodes {P : Vrp} {Q : List (List Node)} (h : SomeCustomerFree P Q) :
    ∃ n, Node.cust n ∈ P.G.nodes ∧ Node.cust n ∉ lockedNodes Q := by
  obtain ⟨n, h1, h2⟩ := h
  refine ⟨n, h1, ?_⟩
  rw [mem_lockedNodes]
  rintro ⟨r, hr, hc, hn⟩
  exact h2 r hr hc hn

theorem stops_customers {mid : List Node} (h : ∀ v ∈ mid, ∃ n, v = Node.cust n) : stops (routeOf mid) = mid := by
  have : mid.filter (fun v => decide (v ≠ .source ∧ v ≠ .sink)) = mid := by
    rw [List.filter_eq_self]
    intro v hv
    obtain ⟨n, rfl⟩ := h v hv
    simp
  simpa [stops, routeOf] using this

/-- The limits of a capacitated problem. -/
def Spec.CarriesWithinStops (P : Vrp) (k : Nat) (r : List Node) : Prop :=
  WithinStops P.numStops.stops (stops r).length ∧
    WithinCapacity (userCapacities P.loadCapacity) k ((stops r).map (userDemand P.G)).sum

theorem plan_of_solves {P : Vrp} {K : Nat} {S : Solution} (h : SolvesProblem P K S) : PlanFor P K (CarriesWithinStops P) S where
  routes := by
    intro i r hir
    obtain ⟨mid, rfl, h1, h2, h3, h4, k, h5, h6, h7⟩ := h.routes i r hir
    have hs := stops_customers (fun v hv => (h2 v hv).1)
    exact ⟨mid, rfl, h1, h2, h3, k, h5, h6, by rw [hs]; exact h4, by rw [hs]; exact h7⟩
  once := h.once
  dropped := h.dropped
  penalty := h.penalty
  fleet := h.fleet

/-- **C68 (partial).** Let a capacitated problem be handed to the constructor and `solve()` be called with preassigned routes,
with cspy, any pricing strategy, greedy pricing or not, any limits on iterations and time, and let it return, however the
solvers behave within their contracts.  Then the report consists of the complete preassigned routes, unchanged, and of
routes within the limits of the user, on which every other customer is visited exactly once unless dropped; and
`best_value` is what these routes cost plus penalties, if every complete preassigned route fits some vehicle.  What the
whole claim lacks: that preassigned routes respect the limits and count for the fleet is false
(`C68_heavy_counterexample`, `C68_stops_counterexample`, `C68_fleet_counterexample`).  For periodic problems, pickup and
delivery and diving see `C68_periodic_partial`, `C68_requests_partial`, `C68_dive_partial`.  Incomplete preassigned routes only make their arcs free during the search (C28). -/
theorem C68_plan_partial {w : World} {a : SolveArgs} {fuel : Nat} {P0 : Vrp} {o o' : Obj} (hw : WorldOk w)
    (hP : Capacitated P0) (hdive : a.dive = false) (hheur : a.heuristicOnly = false) (hcspy : a.cspy = true)
    (hfree : SomeCustomerFree P0 a.preassignments)
    (hinit : ∀ r ∈ a.initialRoutes, r.Nodup ∧ WithinStops P0.numStops.stops (stops r).length)
    (hc : Obj.create P0 = .ok o) (h : o.solve w a fuel = .ok (some o')) :
    ∃ K N free locked, (P0.mixedFleet = false → K = 1) ∧ o'.P.H = some N ∧
      PlanWithLocked P0 a.preassignments K (CarriesWithinStops P0) o'.solution free locked ∧
      ValueWithLocked P0 a.preassignments K N o'.solution := by
  unfold Obj.solve at h
  split at h
  · cases h
  rename_i P' hstart
  rw [hheur] at h
  simp only [Bool.false_eq_true, if_false] at h
  obtain ⟨K, N, N3, R, S⟩ := searched_locked (w := w) hP.wf hP.customer hP.costs (fun v hv _ => hP.demand v hv) hc hstart
  have hP' := without_capacitated hP (free_nodes hfree)
  have hold : o.solution.dropped = [] := by
    obtain ⟨G, _, rfl⟩ := create_ok hc
    rfl
  obtain ⟨r1, ⟨free, locked, r2⟩, r3⟩ := locked_plan R hfree
    (fun _ _ _ h => h)
    (fun o1 ho1 => plan_of_solves (plan_of_good hP' S hw.cw hw.master hw.path
      (by
        show ∀ r ∈ P'.initialRoutes, _
        rw [startSolve_initial hc hstart]
        exact hinit) hdive (fun _ => hold)
      (fun rs _ d _ _ _ _ _ => price_searched hw hP'.toCapacitatedData S hcspy rs d) ho1).2.1) h
  exact ⟨K, N, free, locked, S.typesOne, r1, r2, r3⟩

/-- **C68 (partial), LP pricing.** As `C68_plan_partial`, for pricing by LP, under the conditions of `C55_lp_partial`.
What is missing: as there. -/
theorem C68_lp_partial {w : World} {a : SolveArgs} {fuel : Nat} {P0 : Vrp} {o o' : Obj} (hw : LpWorldOk PositiveCycles w)
    (hP : Capacitated P0) (hD : NonnegativeData P0) (hopt : OptionDuals w.toEnv P0)
    (hdive : a.dive = false) (hheur : a.heuristicOnly = false) (hcspy : a.cspy = false)
    (hfree : SomeCustomerFree P0 a.preassignments)
    (hinit : ∀ r ∈ a.initialRoutes, r.Nodup ∧ WithinStops P0.numStops.stops (stops r).length)
    (hc : Obj.create P0 = .ok o) (h : o.solve w a fuel = .ok (some o')) :
    ∃ K N free locked, (P0.mixedFleet = false → K = 1) ∧ o'.P.H = some N ∧
      PlanWithLocked P0 a.preassignments K (CarriesWithinStops P0) o'.solution free locked ∧
      ValueWithLocked P0 a.preassignments K N o'.solution := by
  unfold Obj.solve at h
  split at h
  · cases h
  rename_i P' hstart
  rw [hheur] at h
  simp only [Bool.false_eq_true, if_false] at h
  obtain ⟨K, N, N3, R, S⟩ := searched_locked (w := w) hP.wf hP.customer hP.costs (fun v hv _ => hP.demand v hv) hc hstart
  have hP' := without_capacitated hP (free_nodes hfree)
  have hD' := without_nonnegative hP.wf R.depots.1 R.depots.2 hD
  have hold : o.solution.dropped = [] := by
    obtain ⟨G, _, rfl⟩ := create_ok hc
    rfl
  obtain ⟨r1, ⟨free, locked, r2⟩, r3⟩ := locked_plan R hfree
    (fun _ _ _ h => h)
    (fun o1 ho1 => plan_of_solves (plan_of_good hP' S hw.cw hw.master hw.path
      (by
        show ∀ r ∈ P'.initialRoutes, _
        rw [startSolve_initial hc hstart]
        exact hinit) hdive (fun _ => hold)
      (fun rs stm d cost st1 _ _ hs =>
        (lp_priced hw hP'.toCapacitatedData hD' hcspy S rs (hw.free S hD' (hopt.without _) hs)).mono (fun c hc => hc.good)) ho1).2.1) h
  exact ⟨K, N, free, locked, S.typesOne, r1, r2, r3⟩

/-- What is asked of initial routes next to preassigned routes: they repeat no node, do not visit customers of complete
preassigned routes, and are within the limits of the user if the vehicle can carry their load. -/
def Spec.InitialBesideLocked (P : Vrp) (Q : List (List Node)) (R : List (List Node)) : Prop :=
  ∀ r ∈ R, r.Nodup ∧ (∀ n, Node.cust n ∈ r → ∀ p ∈ Q, Complete p → Node.cust n ∉ p) ∧
    ∀ mid k, r = routeOf mid → WithinCapacity (userCapacities P.loadCapacity) k (mid.map (userDemand P.G)).sum →
      RouteLimits P k mid ∧ Within P.duration.limit (userDuration P.G (routeOf mid))

theorem initial_without {P0 : Vrp} {Q R : List (List Node)} (hd : Node.source ∉ lockedNodes Q ∧ Node.sink ∉ lockedNodes Q)
    (h : InitialBesideLocked P0 Q R) : ∀ r ∈ R, r.Nodup ∧ ∀ mid k, r = routeOf mid →
      WithinCapacity (userCapacities P0.loadCapacity) k (mid.map (userDemand P0.G)).sum →
        RouteLimits (withoutNodes P0 (lockedNodes Q)) k mid := by
  intro r hr
  obtain ⟨h1, h2, h3⟩ := h r hr
  refine ⟨h1, fun mid k he hcap => ?_⟩
  obtain ⟨l1, l2⟩ := h3 mid k he hcap
  refine limits_to_without hd.1 hd.2 (fun v hv => ?_) l1 l2
  cases v with
  | source => exact hd.1
  | sink => exact hd.2
  | cust n =>
    rw [mem_lockedNodes]
    rintro ⟨p, hp, hc, hn⟩
    exact h2 n (by rw [he]; simp [routeOf, hv]) p hp hc hn

/-- The steps common to both ways of pricing. -/
theorem variant_locked {w : World} {a : SolveArgs} {fuel : Nat} {P0 P' : Vrp} {o o' : Obj} {K : Nat} {N N3 : Net}
    (hP : WindowedOrCollecting P0) (hmaster : ∀ t, MasterSolverSound (w.master t))
    (hpath : ∀ (c : Column) (p : List Node), IsShortestPath c.edges p → IsShortestPath c.edges (w.path c))
    (hfree : SomeCustomerFree P0 a.preassignments) (hdive : a.dive = false)
    (hinit : InitialBesideLocked P0 a.preassignments a.initialRoutes) (hc : Obj.create P0 = .ok o)
    (hstart : o.P.startSolve w.dist a.strategy a.cspy a.initialRoutes a.preassignments = .ok P')
    (R : Reported P0 P' a.preassignments K N)
    (S : Searched (withoutNodes P0 (lockedNodes a.preassignments))
        { P' with
          H := some (N.removeNodes (lockedNodes a.preassignments))
          preassignments := []
          moreRoutes := true } K (N.removeNodes (lockedNodes a.preassignments)) N3)
    (hprice : ∀ rs stm d cost st1, Solve.solveMaster (({ P' with
          H := some (N.removeNodes (lockedNodes a.preassignments))
          preassignments := []
          moreRoutes := true
          initialRoutes := rs } : Vrp).solveCfg a w.falsy) w.toEnv false stm = .ok (d, cost, st1) → Solve.PriceOk (({ P' with
          H := some (N.removeNodes (lockedNodes a.preassignments))
          preassignments := []
          moreRoutes := true
          initialRoutes := rs } : Vrp).solveCfg a w.falsy) w.toEnv d
      (ColumnFor N3 K (fun k r => ∃ mid, r = routeOf mid ∧ RouteLimits (withoutNodes P0 (lockedNodes a.preassignments)) k mid)))
    (h : Obj.columnGeneration w a fuel P' o = .ok (some o')) :
    o'.P.H = some N ∧ (∃ free locked, PlanWithLocked P0 a.preassignments K
        (fun k r => ∃ mid, r = routeOf mid ∧ RouteLimits P0 k mid) o'.solution free locked) ∧
      ValueWithLocked P0 a.preassignments K N o'.solution := by
  have hP' := without_variant hP (free_nodes hfree) R.depots.1
  have U := userData_locked (w := w) hP.wf (fun _ => hP.demand) hc hstart R.reports
  have hold : o.solution.dropped = [] := by
    obtain ⟨G, _, rfl⟩ := create_ok hc
    rfl
  refine locked_plan (F := fun k r => ∃ mid, r = routeOf mid ∧ RouteLimits (withoutNodes P0 (lockedNodes a.preassignments)) k mid)
    R hfree ?_ ?_ h
  · rintro k mid hm ⟨mid', he, hl⟩
    have : mid = mid' := by
      simp only [routeOf, List.cons.injEq, true_and] at he
      exact List.append_cancel_right he
    subst this
    exact ⟨mid, rfl, limits_without R.depots.1 R.depots.2 (fun v hv => (hm v hv).2.2) hl⟩
  · intro o1 ho1
    refine (plan_of_columns hP'.customer hP'.periodic S hmaster hpath ?_ hdive (fun _ => hold)
      (fun rs stm d cost st1 _ _ hs => hprice rs stm d cost st1 hs) ho1).2.1
    intro P'' cols h1
    refine initial_limits hP'.toVariantData S U ?_ h1
    show ∀ r ∈ P'.initialRoutes, _
    rw [startSolve_initial hc hstart]
    exact initial_without R.depots hinit

/-- **C68 (partial), time windows or collection.** As `C68_plan_partial`, for problems with time windows or with distribution
and collection: the routes found are within the limits of the user; nothing is said about the limits of the preassigned
routes, for which only the load is checked.  What is missing: as there. -/
theorem C68_variants_partial {w : World} {a : SolveArgs} {fuel : Nat} {P0 : Vrp} {o o' : Obj} (hw : WorldOk w)
    (hP : WindowedOrCollecting P0) (hdive : a.dive = false) (hheur : a.heuristicOnly = false) (hcspy : a.cspy = true)
    (hfree : SomeCustomerFree P0 a.preassignments) (hinit : InitialBesideLocked P0 a.preassignments a.initialRoutes)
    (hc : Obj.create P0 = .ok o) (h : o.solve w a fuel = .ok (some o')) :
    ∃ K N free locked, (P0.mixedFleet = false → K = 1) ∧ o'.P.H = some N ∧
      PlanWithLocked P0 a.preassignments K (fun k r => ∃ mid, r = routeOf mid ∧ RouteLimits P0 k mid) o'.solution free locked ∧
      ValueWithLocked P0 a.preassignments K N o'.solution := by
  unfold Obj.solve at h
  split at h
  · cases h
  rename_i P' hstart
  rw [hheur] at h
  simp only [Bool.false_eq_true, if_false] at h
  obtain ⟨K, N, N3, R, S⟩ := searched_locked (w := w) hP.wf hP.customer hP.costs (fun v hv _ => hP.demand v hv) hc hstart
  have U := userData_locked (w := w) hP.wf (fun _ => hP.demand) hc hstart R.reports
  have hP' := without_variant hP (free_nodes hfree) R.depots.1
  obtain ⟨r1, ⟨free, locked, r2⟩, r3⟩ := variant_locked hP hw.master hw.path hfree hdive hinit hc hstart R S
    (fun rs _ d _ _ _ => price_variant hw hP'.toVariantData S U hcspy rs d) h
  exact ⟨K, N, free, locked, S.typesOne, r1, r2, r3⟩

/-- **C68 (partial), time windows with LP pricing.** As `C68_variants_partial`, for problems with time windows and pricing by
LP.  What is missing: as there. -/
theorem C68_windows_lp_partial {w : World} {a : SolveArgs} {fuel : Nat} {P0 : Vrp} {o o' : Obj} (hw : LpSound w)
    (hP : WindowedOrCollecting P0) (htw : P0.timeWindows = true) (htime : TravelTakesTime P0) (hdive : a.dive = false)
    (hheur : a.heuristicOnly = false) (hcspy : a.cspy = false)
    (hfree : SomeCustomerFree P0 a.preassignments) (hinit : InitialBesideLocked P0 a.preassignments a.initialRoutes)
    (hc : Obj.create P0 = .ok o) (h : o.solve w a fuel = .ok (some o')) :
    ∃ K N free locked, (P0.mixedFleet = false → K = 1) ∧ o'.P.H = some N ∧
      PlanWithLocked P0 a.preassignments K (fun k r => ∃ mid, r = routeOf mid ∧ RouteLimits P0 k mid) o'.solution free locked ∧
      ValueWithLocked P0 a.preassignments K N o'.solution := by
  unfold Obj.solve at h
  split at h
  · cases h
  rename_i P' hstart
  rw [hheur] at h
  simp only [Bool.false_eq_true, if_false] at h
  obtain ⟨K, N, N3, R, S⟩ := searched_locked (w := w) hP.wf hP.customer hP.costs (fun v hv _ => hP.demand v hv) hc hstart
  have U := userData_locked (w := w) hP.wf (fun _ => hP.demand) hc hstart R.reports
  have hP' := without_variant hP (free_nodes hfree) R.depots.1
  obtain ⟨r1, ⟨free, locked, r2⟩, r3⟩ := variant_locked hP hw.master hw.path hfree hdive hinit hc hstart R S
    (fun rs _ d _ _ _ => price_windows_lp hw hP'.toVariantData htw (without_travel htime) S U hcspy rs d) h
  exact ⟨K, N, free, locked, S.typesOne, r1, r2, r3⟩

/-- **C68 (partial), collection with LP pricing.** As `C68_variants_partial`, for distribution and collection without time
windows and pricing by LP (conditions of `C61_lp_untimed_partial`).  What is missing: as there. -/
theorem C68_collect_lp_partial {w : World} {a : SolveArgs} {fuel : Nat} {P0 : Vrp} {o o' : Obj} (hw : LpWorldOk PositiveCycles w)
    (hP : WindowedOrCollecting P0) (htw : P0.timeWindows = false) (hD : NonnegativeData P0)
    (hopt : OptionDuals w.toEnv P0) (hdive : a.dive = false)
    (hheur : a.heuristicOnly = false) (hcspy : a.cspy = false)
    (hfree : SomeCustomerFree P0 a.preassignments) (hinit : InitialBesideLocked P0 a.preassignments a.initialRoutes)
    (hc : Obj.create P0 = .ok o) (h : o.solve w a fuel = .ok (some o')) :
    ∃ K N free locked, (P0.mixedFleet = false → K = 1) ∧ o'.P.H = some N ∧
      PlanWithLocked P0 a.preassignments K (fun k r => ∃ mid, r = routeOf mid ∧ RouteLimits P0 k mid) o'.solution free locked ∧
      ValueWithLocked P0 a.preassignments K N o'.solution := by
  unfold Obj.solve at h
  split at h
  · cases h
  rename_i P' hstart
  rw [hheur] at h
  simp only [Bool.false_eq_true, if_false] at h
  obtain ⟨K, N, N3, R, S⟩ := searched_locked (w := w) hP.wf hP.customer hP.costs (fun v hv _ => hP.demand v hv) hc hstart
  have U := userData_locked (w := w) hP.wf (fun _ => hP.demand) hc hstart R.reports
  have hP' := without_variant hP (free_nodes hfree) R.depots.1
  have hD' := without_nonnegative hP.wf R.depots.1 R.depots.2 hD
  obtain ⟨r1, ⟨free, locked, r2⟩, r3⟩ := variant_locked hP hw.master hw.path hfree hdive hinit hc hstart R S
    (fun rs stm d cost st1 hs => price_collect_lp hw hP'.toVariantData htw hD' hcspy S U rs (hw.free S hD' (hopt.without _) hs)) h
  exact ⟨K, N, free, locked, S.typesOne, r1, r2, r3⟩

/-! ## Nothing left to plan -/

theorem depots_only {l : List Node} (hn : l.Nodup) (h : ∀ v ∈ l, v = .source ∨ v = .sink) : l.length ≤ 2 := by
  have : l ⊆ [Node.source, .sink] := by
    intro v hv
    rcases h v hv with rfl | rfl <;> simp
  exact (List.Subperm.length_le (List.subperm_of_subset hn this))

/-- **C68 (partial), nothing left to plan.** If every customer is on a complete preassigned route (time windows, requests,
collection, periodic problems allowed), then `solve()` reports exactly the complete preassigned routes.  It returns only if there is no drop
penalty: with one it raises an error (`C68_penalty_counterexample`).  What is missing: diving,
`use_all_vehicles` (which is then not enforced). -/
theorem C68_all_locked_partial {w : World} {a : SolveArgs} {fuel : Nat} {P0 : Vrp} {o o' : Obj} (hwf : P0.G.WF)
    (hcust : ∃ n, Node.cust n ∈ P0.G.nodes) (hdoc : CostsAsDocumented P0)
    (hdem : ∀ v ∈ P0.G.nodes, P0.pickupDelivery = false ∨ v = .source ∨ v = .sink → 0 ≤ userDemand P0.G v)
    (huse : P0.useAllVehicles = false)
    (hdive : a.dive = false) (hheur : a.heuristicOnly = false)
    (hnone : ¬ SomeCustomerFree P0 a.preassignments)
    (hc : Obj.create P0 = .ok o) (h : o.solve w a fuel = .ok (some o')) :
    P0.dropPenalty = 0 ∧ o'.solution.dropped = [] ∧
      ∃ K N locked, (P0.mixedFleet = false → K = 1) ∧ o'.P.H = some N ∧ o'.solution.routes = locked ∧
        PlanWithLocked P0 a.preassignments K (fun _ _ => False) o'.solution [] locked ∧
        ValueWithLocked P0 a.preassignments K N o'.solution := by
  unfold Obj.solve at h
  split at h
  · cases h
  rename_i P' hstart
  rw [hheur] at h
  simp only [Bool.false_eq_true, if_false] at h
  obtain ⟨K, N, N3, R, S⟩ := searched_locked (w := w) hwf hcust hdoc hdem hc hstart
  have hnodes : ∀ v ∈ P0.G.nodes, v ∉ lockedNodes a.preassignments → v = .source ∨ v = .sink := by
    intro v hv hvL
    cases v with
    | source => simp
    | sink => simp
    | cust n =>
      exfalso
      refine hnone ⟨n, hv, fun p hp hcp hn => hvL (mem_lockedNodes.2 ⟨p, hp, hcp, hn⟩)⟩
  have hlen : P'.G.toNet.nodes.length ≤ 2 := by
    have hN3 : P'.G.toNet = N3 := by
      have := S.graph
      simp only at this
      rw [this]
      rfl
    rw [hN3, S.nodes]
    refine depots_only S.wf.nodes_nodup (fun v hv => ?_)
    rw [S.userNodes] at hv
    obtain ⟨h1, h2⟩ := without_nodes.1 hv
    exact hnodes v h1 h2
  have hno : a.preassignments ≠ [] := by
    obtain ⟨n, hn⟩ := hcust
    intro he
    refine hnone ⟨n, hn, ?_⟩
    rw [he]
    simp
  have hmore : P'.moreRoutes = false := by
    refine R.done ?_ hno
    rintro ⟨n, h1, h2⟩
    rcases hnodes _ h1 h2 with h | h <;> cases h
  obtain ⟨G, _, rfl⟩ := create_ok hc
  unfold Obj.columnGeneration at h
  cases h1 : P'.initialize P'.G.toNet w.cw fuel with
  | error e => simp [h1] at h
  | ok x =>
  cases x with
  | none => simp [h1] at h
  | some x =>
  obtain ⟨P'', cols⟩ := x
  simp only [h1] at h
  unfold Vrp.initialize at h1
  cases hch : P'.chooseInitial P'.G.toNet w.cw fuel with
  | error e => simp [hch] at h1
  | ok y =>
  cases y with
  | none => simp [hch] at h1
  | some rs =>
  simp only [hch] at h1
  cases hcv : convertRoutes P'.G.toNet (capacities P'.loadCapacity.toList) rs with
  | error e => simp [hcv] at h1
  | ok cols' =>
  simp only [hcv, Except.ok.injEq, Option.some.injEq, Prod.mk.injEq] at h1
  obtain ⟨rfl, rfl⟩ := h1
  split at h
  · cases h
  rename_i hcreate
  have hcg : ∀ (st : SolveState), st.more = false → Solve.columnGeneration (({ P' with initialRoutes := rs } : Vrp).solveCfg a w.falsy)
      w.toEnv false fuel st = .ok (some st) := by
    intro st hst
    cases fuel with
    | zero => simp [Solve.columnGeneration, hst]
    | succ n => simp [Solve.columnGeneration, hst]
  unfold Solve.run at h
  rw [hcg _ (by simp only [Obj.start]; exact hmore)] at h
  have hmip : ¬ (({ P' with initialRoutes := rs } : Vrp).solveCfg a w.falsy).M.G.nodes.length > 2 := by
    show ¬ P'.G.toNet.nodes.length > 2
    omega
  simp only [hdive, Bool.false_eq_true, if_false, Solve.solveMIP, hmip] at h
  split at h
  · cases h
  rename_i o2 hpost
  simp only [Except.ok.injEq, Option.some.injEq] at h
  subst h
  unfold Obj.postProcess at hpost
  simp only [py_bind_ok] at hpost
  obtain ⟨dropped, hdrop, rt, hrt, sch, hsch, hpost⟩ := hpost
  simp only [pure, Except.pure, Except.ok.injEq] at hpost
  have hpen : P'.dropPenalty = P0.dropPenalty := S.fields.2.2.2.2.1
  unfold Obj.droppedNodes at hdrop
  simp only at hdrop
  split at hdrop
  · cases hdrop
  rename_i hzero
  push Not at hzero
  simp only [Except.ok.injEq] at hdrop
  unfold bestRoutesAsNodeLists at hrt
  simp only [R.reports, R.caps, R.types, R.preassigned, Option.getD_some] at hrt
  cases hf : a.preassignments.foldlM (mergeLocked N (userCapacities P0.loadCapacity) K)
      (([] : List Column).foldl (addGraph w.path) ([], [], 1)) with
  | error e =>
    rw [hf] at hrt
    cases hrt
  | ok m =>
  rw [hf] at hrt
  simp only [Except.ok.injEq] at hrt
  have hM := merged_all hf
  have hp : PlanFor (withoutNodes P0 (lockedNodes a.preassignments)) K (fun _ _ => False) ⟨[], [], []⟩ := by
    refine ⟨fun i r hir => (by cases hir), ?_, fun v hv => (by cases hv), fun _ => rfl, ?_⟩
    · intro n hn _
      obtain ⟨h1, h2⟩ := without_nodes.1 hn
      rcases hnodes _ h1 h2 with h | h <;> cases h
    · intro k n _
      refine ⟨by simp, fun hu => ?_⟩
      have : P0.useAllVehicles = true := hu
      rw [huse] at this
      cases this
  obtain ⟨⟨locked, m1⟩, m2⟩ := locked_merge (path := w.path) (graphs := []) (S' := o2.solution) R (fun _ _ _ h => h) hp
    (by simp [numbered]) (by simp [numbered]) (by rw [← hpost]; exact hdrop.symm) hM
    (by rw [← hpost, ← hrt]) (by rw [← hpost, ← hrt])
  refine ⟨by rw [← hpen]; exact hzero, by rw [← hpost]; exact hdrop.symm, K, N, locked, S.typesOne, ?_, ?_, m1, m2⟩
  · rw [← hpost]
    exact R.reports
  · have := m1.all
    simpa using this

/-- **C68**, consequence: if no customer is on two complete preassigned routes or twice on one, then every customer is visited
exactly once or dropped, preassigned routes included.  (The condition is needed: `C68_twice_counterexample`.) -/
theorem C68_each_once {P : Vrp} {Q : List (List Node)} {K : Nat} {F : Nat → List Node → Prop} {S : Solution}
    {free locked : List (Nat × List Node)} (h : PlanWithLocked P Q K F S free locked)
    (hdis : ∀ n, ((Q.filter (fun r => r.head? = some .source ∧ r.getLast? = some .sink)).map (List.count (Node.cust n))).sum ≤ 1)
    (n : Nat) (hn : Node.cust n ∈ P.G.nodes) :
    (Node.cust n ∉ S.dropped → (S.routes.map (fun p => p.2.count (.cust n))).sum = 1) ∧
      (Node.cust n ∈ S.dropped → (S.routes.map (fun p => p.2.count (.cust n))).sum = 0) := by
  have hsum : (S.routes.map (fun p => p.2.count (.cust n))).sum =
      (free.map (fun p => p.2.count (.cust n))).sum +
        ((Q.filter (fun r => r.head? = some .source ∧ r.getLast? = some .sink)).map (List.count (Node.cust n))).sum := by
    rw [h.all, List.map_append, List.sum_append, ← h.verbatim, List.map_map]
    rfl
  constructor
  · intro hnd
    rw [hsum]
    by_cases hq : ∀ p ∈ Q, Complete p → .cust n ∉ p
    · rw [h.once n hn hq hnd]
      have : ((Q.filter (fun r => r.head? = some .source ∧ r.getLast? = some .sink)).map (List.count (Node.cust n))).sum = 0 := by
        rw [List.sum_eq_zero_iff]
        intro x hx
        obtain ⟨r, hr, rfl⟩ := List.mem_map.1 hx
        obtain ⟨h1, h2⟩ := List.mem_filter.1 hr
        simp only [decide_eq_true_eq] at h2
        exact List.count_eq_zero.2 (hq r h1 h2)
      omega
    · push Not at hq
      obtain ⟨p, hp, hc, hnp⟩ := hq
      have hfree : (free.map (fun p => p.2.count (.cust n))).sum = 0 := by
        rw [List.sum_eq_zero_iff]
        intro x hx
        obtain ⟨⟨i, r⟩, hr, rfl⟩ := List.mem_map.1 hx
        obtain ⟨mid, rfl, _, hm, _⟩ := h.routes i r hr
        refine List.count_eq_zero.2 (fun hmem => ?_)
        simp only [routeOf, List.mem_cons, reduceCtorEq, List.mem_append, List.not_mem_nil, or_false, false_or] at hmem
        exact (hm _ hmem).2.2 p hp hc hnp
      have hpos : 0 < p.count (.cust n) := List.count_pos_iff.2 hnp
      have hmem : p.count (.cust n) ∈
          (Q.filter (fun r => r.head? = some .source ∧ r.getLast? = some .sink)).map (List.count (Node.cust n)) := by
        refine List.mem_map.2 ⟨p, List.mem_filter.2 ⟨hp, ?_⟩, rfl⟩
        simp only [decide_eq_true_eq]
        exact hc
      have := List.le_sum_of_mem hmem
      have := hdis n
      omega
  · intro hd
    rw [List.sum_eq_zero_iff]
    intro x hx
    obtain ⟨⟨i, r⟩, hr, rfl⟩ := List.mem_map.1 hx
    exact List.count_eq_zero.2 ((h.dropped _ hd).2.2 i r hr)

end Vrpy
