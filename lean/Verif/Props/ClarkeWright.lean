import Verif.Proofs.ClarkeWright
import Mathlib.Tactic.NormNum

/-!
# C07-C10: the savings heuristic
-/

namespace Vrpy

open Spec

/-- Contracts of Python `set` iteration (any order) and of `networkx.shortest_path` (any shortest path). -/
structure CWOracle.Valid (o : CWOracle) : Prop where
  order : ∀ l, (o.order l).Perm l
  path : ∀ r : CWRoute, (∃ p, IsShortestPath r.edges p) → IsShortestPath r.edges (o.path r)

/-- Everything the invariant says about the final result. -/
private theorem cwRun_main (G : Net) (cfg : CWConfig) (o : CWOracle) (hG : WellFormed G) (hD : DepotConnected G)
    (hK : CostsFor G 1) (ho : o.Valid) :
    ∃ (val : ℚ) (Ls : List (List Node)), cwRun G cfg o = .ok (val, Ls.map routeOf) ∧ Ls.flatten.Perm G.customers ∧
      (∀ L ∈ Ls, ∃ r, RouteInv G cfg r L) ∧ val = (Ls.map (fun L => Spec.cost G 0 (routeOf L))).sum := by
  obtain ⟨s, L, hs, hinv⟩ := cwLoop_ok (cfg := cfg) hG hD hK
  set ids := o.order ((G.customers.map s.route).dedup) with hids
  have hperm := ho.order ((G.customers.map s.route).dedup)
  have hmem : ∀ id, id ∈ ids ↔ ∃ v ∈ G.customers, s.route v = id := by
    intro id
    rw [hids, hperm.mem_iff, List.mem_dedup, List.mem_map]
  have hidnd : ids.Nodup := hperm.nodup_iff.2 (List.nodup_dedup _)
  have hpath : ∀ id ∈ ids, o.path (s.heap id) = routeOf (L id) := by
    intro id hid
    obtain ⟨v, hv, rfl⟩ := (hmem id).1 hid
    have hg := (hinv.inv v hv).graph
    exact shortest_eq hg (ho.path _ ⟨_, shortest_exists hg⟩)
  refine ⟨(ids.map (fun id => (s.heap id).cost)).sum, ids.map L, ?_, ?_, ?_, ?_⟩
  · simp only [cwRun, hs, bind, Except.bind, pure, Except.pure, ← hids]
    congr 2
    · rw [List.sum_eq_foldl, List.foldl_map]
    · rw [List.map_map]
      exact List.map_congr_left hpath
  · apply (List.perm_ext_iff_of_nodup _ (hG.nodes_nodup.filter _)).2
    · intro v
      simp only [List.mem_flatten, List.mem_map]
      constructor
      · rintro ⟨_, ⟨id, hid, rfl⟩, hv⟩
        obtain ⟨u, hu, rfl⟩ := (hmem id).1 hid
        exact ((hinv.mem u hu v).1 hv).1
      · intro hv
        exact ⟨_, ⟨s.route v, (hmem _).2 ⟨v, hv, rfl⟩, rfl⟩, (hinv.mem v hv v).2 ⟨hv, rfl⟩⟩
    · rw [List.nodup_flatten]
      constructor
      · intro l hl
        simp only [List.mem_map] at hl
        obtain ⟨id, hid, rfl⟩ := hl
        obtain ⟨u, hu, rfl⟩ := (hmem id).1 hid
        have := (hinv.inv u hu).graph.nodup
        exact (List.nodup_append.1 (List.nodup_cons.1 this).2).1
      · rw [List.pairwise_map]
        refine List.Pairwise.imp_of_mem ?_ hidnd
        intro a b ha hb hab x hxa hxb
        obtain ⟨u, hu, rfl⟩ := (hmem a).1 ha
        obtain ⟨w, hw, rfl⟩ := (hmem b).1 hb
        exact hab (((hinv.mem u hu x).1 hxa).2.symm.trans ((hinv.mem w hw x).1 hxb).2)
  · intro l hl
    simp only [List.mem_map] at hl
    obtain ⟨id, hid, rfl⟩ := hl
    obtain ⟨u, hu, rfl⟩ := (hmem id).1 hid
    exact ⟨_, hinv.inv u hu⟩
  · rw [List.map_map]
    congr 1
    apply List.map_congr_left
    intro id hid
    obtain ⟨u, hu, rfl⟩ := (hmem id).1 hid
    exact (hinv.inv u hu).cost

private theorem routeInv_simple {G : Net} {cfg : CWConfig} {r : CWRoute} {L : List Node} (h : RouteInv G cfg r L)
    (hL : ∀ v ∈ L, v ∈ G.customers) : IsSimpleRoute G (routeOf L) := by
  refine ⟨⟨L, rfl, ?_, ?_⟩, h.graph.nodup⟩
  · intro v hv
    have := mem_customers.1 (hL v hv)
    refine ⟨?_, this.1⟩
    cases v with
    | source => simp at this
    | sink => simp at this
    | cust n => exact ⟨n, rfl⟩
  · rw [along_iff]
    exact fun a b hab => h.along (a, b) hab

private theorem flatten_mem {Ls : List (List Node)} {cs : List Node} (h : Ls.flatten.Perm cs) :
    ∀ L ∈ Ls, ∀ v ∈ L, v ∈ cs := fun L hL _ hv => h.mem_iff.1 (List.mem_flatten.2 ⟨L, hL, hv⟩)

private theorem count_routes (Ls : List (List Node)) (v : Node) (h1 : v ≠ .source) (h2 : v ≠ .sink) :
    (((Ls.map routeOf).flatten).filter (fun x => x = v)).length = (Ls.flatten.filter (fun x => x = v)).length := by
  induction Ls with
  | nil => rfl
  | cons L Ls ih =>
    simp only [List.map_cons, List.flatten_cons, List.filter_append, List.length_append, ih]
    congr 1
    simp only [routeOf, List.filter_cons, List.filter_append]
    simp [h1.symm, h2.symm]

/-- **C07.** Whatever the order in which the set of routes is iterated and whichever shortest paths networkx returns,
the savings heuristic never raises, every route it returns is a simple Source-Sink route of the network, and each
customer of the network is visited exactly once. -/
theorem C07_clarke_wright_partition (G : Net) (cfg : CWConfig) (o : CWOracle) (hG : WellFormed G)
    (hD : DepotConnected G) (hK : CostsFor G 1) (ho : o.Valid) :
    ∃ val rs, cwRun G cfg o = .ok (val, rs) ∧ (∀ r ∈ rs, IsSimpleRoute G r) ∧ VisitsEachOnce G.customers rs := by
  obtain ⟨val, Ls, h1, h2, h3, _⟩ := cwRun_main G cfg o hG hD hK ho
  refine ⟨val, Ls.map routeOf, h1, ?_, ?_⟩
  · intro r hr
    simp only [List.mem_map] at hr
    obtain ⟨L, hL, rfl⟩ := hr
    obtain ⟨r, hr⟩ := h3 L hL
    exact routeInv_simple hr (flatten_mem h2 L hL)
  · intro v hv
    have hv' := mem_customers.1 hv
    rw [count_routes Ls v hv'.2.1 hv'.2.2, (h2.filter _).length_eq]
    have hnd : G.customers.Nodup := hG.nodes_nodup.filter _
    have hc := List.count_eq_one_of_mem hnd hv
    rw [← hc, List.count_eq_length_filter]
    rfl

/-- **C08.** If every single customer fits the vehicle (this is what `check_feasibility` ensures) then every route of
the savings heuristic respects the load capacity and the maximum number of stops. -/
theorem C08_clarke_wright_capacity_stops (G : Net) (cfg : CWConfig) (o : CWOracle) (hG : WellFormed G)
    (hD : DepotConnected G) (hK : CostsFor G 1) (ho : o.Valid)
    (hdep : G.demand .source = 0 ∧ G.demand .sink = 0)
    (hfeas : ∀ c, cfg.cap = some c → c ≠ 0 → ∀ v ∈ G.customers, G.demand v ≤ c)
    (hstop : ∀ m, cfg.numStops = some m → m ≠ 0 → 1 ≤ m) :
    ∀ val rs, cwRun G cfg o = .ok (val, rs) → ∀ r ∈ rs,
      Within cfg.cap (load G r) ∧ Within cfg.numStops ((stops r).length : ℚ) := by
  intro val rs hrun r hr
  obtain ⟨val', Ls, h1, h2, h3, _⟩ := cwRun_main G cfg o hG hD hK ho
  rw [hrun] at h1
  cases h1
  simp only [List.mem_map] at hr
  obtain ⟨L, hL, rfl⟩ := hr
  obtain ⟨r, hr⟩ := h3 L hL
  have hsub := flatten_mem h2 L hL
  have hload : load G (routeOf L) = (L.map G.demand).sum := by
    simp [load, routeOf, hdep]
  have hst : stops (routeOf L) = L := by
    have : L.filter (fun v => decide (v ≠ .source ∧ v ≠ .sink)) = L := by
      rw [List.filter_eq_self]
      intro v hv
      simpa using (mem_customers.1 (hsub v hv)).2
    simp only [stops, routeOf]
    rw [List.filter_cons_of_neg (by simp), List.filter_append, this, List.filter_cons_of_neg (by simp)]
    simp
  constructor
  · intro c hc hc0
    rw [hload]
    rcases hr.cap c (by simp [active, hc, hc0]) with h | ⟨v, h⟩
    · exact h
    · have := hfeas c hc hc0 v (hsub v (by simp [h]))
      rw [h]
      simpa using this
  · intro m hm hm0
    rw [hst]
    rcases hr.stops m (by simp [active, hm, hm0]) with h | ⟨v, h⟩
    · exact h
    · rw [h]
      simpa using hstop m hm hm0

/-- **C09 (partial).** Full claim: every route returned by the heuristic respects `duration`.  That is false (see
`C09_service_counterexample` and `C09_asymmetric_counterexample` below).  Proved: it holds when travel times are
symmetric (including depot legs) and every round trip respects the limit on its own. -/
theorem C09_clarke_wright_duration_partial (G : Net) (cfg : CWConfig) (o : CWOracle) (hG : WellFormed G)
    (hD : DepotConnected G) (hK : CostsFor G 1) (ho : o.Valid) (hsym : SymmetricTimes G)
    (hdep : G.service .source = 0 ∧ G.service .sink = 0)
    (hrt : ∀ v ∈ G.customers, Within cfg.duration (duration G [.source, v, .sink])) :
    ∀ val rs, cwRun G cfg o = .ok (val, rs) → ∀ r ∈ rs, Within cfg.duration (duration G r) := by
  intro val rs hrun r hr
  obtain ⟨val', Ls, h1, h2, h3, _⟩ := cwRun_main G cfg o hG hD hK ho
  rw [hrun] at h1
  cases h1
  simp only [List.mem_map] at hr
  obtain ⟨L, hL, rfl⟩ := hr
  obtain ⟨r, hr⟩ := h3 L hL
  intro d hd hd0
  rcases hr.dur hsym d (by simp [active, hd, hd0]) with h | ⟨v, h⟩
  · have : duration G (routeOf L) = travel G (routeOf L) + (L.map G.service).sum := by
      simp [duration, routeOf, hdep]
    rw [this]
    exact h
  · rw [h]
    exact hrt v (flatten_mem h2 L hL v (by simp [h])) d hd hd0

/-- **C10 (first half).** The reported value is the sum of the edge costs of the returned routes. -/
theorem C10_clarke_wright_value (G : Net) (cfg : CWConfig) (o : CWOracle) (hG : WellFormed G)
    (hD : DepotConnected G) (hK : CostsFor G 1) (ho : o.Valid) :
    ∀ val rs, cwRun G cfg o = .ok (val, rs) → val = (rs.map (Spec.cost G 0)).sum := by
  intro val rs hrun
  obtain ⟨val', Ls, h1, h2, h3, h4⟩ := cwRun_main G cfg o hG hD hK ho
  rw [hrun] at h1
  cases h1
  rw [h4, List.map_map]
  rfl

/-- **C10 (second half, partial).** Full claim: the solution is never worse than one round trip per customer.  That is
false because merges with negative saving are carried out too (`C10_negative_saving_counterexample`).  Proved: it
holds when no arc is longer than the detour through the depot. -/
theorem C10_not_worse_than_round_trips_partial (G : Net) (cfg : CWConfig) (o : CWOracle) (hG : WellFormed G)
    (hD : DepotConnected G) (hK : CostsFor G 1) (ho : o.Valid)
    (hsav : ∀ i j, j ∈ G.succ i → i ≠ .source → j ≠ .sink →
      (G.cost i j).getD 0 0 ≤ (G.cost i .sink).getD 0 0 + (G.cost .source j).getD 0 0) :
    ∀ val rs, cwRun G cfg o = .ok (val, rs) →
      val ≤ (G.customers.map (fun v => Spec.cost G 0 [.source, v, .sink])).sum := by
  intro val rs hrun
  obtain ⟨val', Ls, h1, h2, h3, h4⟩ := cwRun_main G cfg o hG hD hK ho
  rw [hrun] at h1
  cases h1
  rw [h4]
  have hrt : ∀ v, Spec.cost G 0 [.source, v, .sink] = roundTripCost G v := by
    intro v; simp [Spec.cost, legSum, roundTripCost]
  simp only [hrt]
  rw [← (h2.map (roundTripCost G)).sum_eq, List.map_flatten, List.sum_flatten, List.map_map]
  clear h2 h4 hrun
  induction Ls with
  | nil => simp
  | cons L Ls ih =>
    simp only [List.map_cons, List.sum_cons, Function.comp]
    obtain ⟨r, hr⟩ := h3 L (by simp)
    have := hr.value hsav
    have := ih (fun L hL => h3 L (by simp [hL]))
    simp only [Function.comp_def] at this ⊢
    linarith

/-! ## Concrete cases and counterexamples -/

/-- The contracts of the oracle can be met. -/
theorem CWOracle.exists_valid : ∃ o : CWOracle, o.Valid := by
  classical
  refine ⟨{ order := id, path := fun r => if h : ∃ p, IsShortestPath r.edges p then h.choose else [] },
    fun _ => List.Perm.refl _, ?_⟩
  intro r h
  simp only [h, dite_true]
  exact h.choose_spec

/-- Two customers joined in both directions; driving from 1 to 2 takes 100, everything else takes 1. -/
def exC09 : Net where
  nodes := [.source, .cust 1, .cust 2, .sink]
  succ := fun u => match u with
    | .source => [.cust 1, .cust 2, .sink]
    | .cust 1 => [.cust 2, .sink]
    | .cust 2 => [.cust 1, .sink]
    | _ => []
  demand := fun v => if v.isDepot then 0 else 3
  collect := fun _ => 0
  service := fun _ => 0
  lower := fun _ => 0
  upper := fun _ => 0
  freq := fun _ => 1
  request := fun _ => none
  cost := fun _ _ => [1]
  time := fun u v => if u = .cust 1 ∧ v = .cust 2 then 100 else 1

theorem exC09_wf : WellFormed exC09 := by
  refine ⟨by decide, ?_, ?_, by decide, by decide, ?_, rfl⟩
  · intro u; simp only [exC09]; split <;> decide
  · intro u; simp only [exC09]; split <;> first | decide | simp
  · intro u; simp only [exC09]; split <;> decide

theorem exC09_depot : DepotConnected exC09 := by
  intro n hn
  simp only [exC09, List.mem_cons, Node.cust.injEq, reduceCtorEq, List.not_mem_nil, or_false, false_or] at hn
  rcases hn with rfl | rfl <;> decide

theorem exC09_costs : CostsFor exC09 1 := by
  intro u v _
  simp [exC09]

/-- The hypotheses of C07, C08 and C10 are met by `exC09` with capacity 6 and two stops. -/
example : ∃ o val rs, CWOracle.Valid o ∧ cwRun exC09 { cap := some 6, numStops := some 2 } o = .ok (val, rs) ∧
    VisitsEachOnce exC09.customers rs ∧ ∀ r ∈ rs, load exC09 r ≤ 6 := by
  obtain ⟨o, ho⟩ := CWOracle.exists_valid
  obtain ⟨val, rs, h1, h2, h3⟩ :=
    C07_clarke_wright_partition exC09 { cap := some 6, numStops := some 2 } o exC09_wf exC09_depot exC09_costs ho
  refine ⟨o, val, rs, ho, h1, h3, ?_⟩
  intro r hr
  refine (C08_clarke_wright_capacity_stops exC09 { cap := some 6, numStops := some 2 } o exC09_wf exC09_depot
    exC09_costs ho ⟨rfl, rfl⟩ ?_ ?_ val rs h1 r hr).1 6 rfl (by norm_num)
  · rintro c hc _ v _
    cases hc
    simp only [exC09]
    split <;> norm_num
  · rintro m hm _
    cases hm
    norm_num

/-- The hypotheses of C09 (partial) can be met: `exC09` with all times 1. -/
example : SymmetricTimes { exC09 with time := fun _ _ => 1 } := ⟨fun _ _ _ _ => rfl, fun _ _ => rfl⟩

/-- **C09 fails for asymmetric times**, although every round trip respects the limit: for `exC09` with duration 10 the
heuristic returns Source-1-2-Sink, which takes 102.  (`_process_edge` checks the reversed route.) -/
theorem C09_asymmetric_counterexample (o : CWOracle) (ho : o.Valid) :
    (∀ v ∈ exC09.customers, duration exC09 [.source, v, .sink] ≤ 10) ∧
    ∃ val, cwRun exC09 { duration := some 10 } o = .ok (val, [[.source, .cust 1, .cust 2, .sink]]) ∧
      duration exC09 [.source, .cust 1, .cust 2, .sink] = 102 := by
  constructor
  · intro v hv
    have hv' := mem_customers.1 hv
    simp only [duration, travel, legSum, exC09, List.map_cons, List.map_nil, List.sum_cons, List.sum_nil]
    rw [if_neg (by simp), if_neg (by simp)]
    norm_num
  · obtain ⟨s, L, hs, _⟩ := cwLoop_ok (cfg := { duration := some 10 }) exC09_wf exC09_depot exC09_costs
    have hd : ((cwLoop exC09 { duration := some 10 }).toOption.map (fun s => (s.route (.cust 1), s.route (.cust 2),
        (s.heap (s.route (.cust 2))).edges))) =
        some (.cust 2, .cust 2, [(.cust 2, .sink), (.source, .cust 1), (.cust 1, .cust 2)]) := by decide +kernel
    rw [hs] at hd
    simp only [Except.toOption, Option.map_some, Option.some.injEq, Prod.mk.injEq] at hd
    obtain ⟨d1, d2, d3⟩ := hd
    have hcust : exC09.customers = [.cust 1, .cust 2] := by decide
    have hids : (exC09.customers.map s.route).dedup = [.cust 2] := by
      rw [hcust]; simp only [List.map_cons, List.map_nil, d1, d2]; decide
    have hord : o.order [.cust 2] = [.cust 2] := List.perm_singleton.1 (ho.order _)
    rw [d2] at d3
    have hsp := shortest_iff (es := (s.heap (.cust 2)).edges) (L := [.cust 1, .cust 2]) (by decide) (by
      intro e
      rw [d3]
      simp only [routeOf, List.cons_append, List.nil_append, consecutive_cons_cons, consecutive_one, List.mem_cons,
        List.not_mem_nil, or_false]
      tauto)
    have hp : o.path (s.heap (.cust 2)) = routeOf [.cust 1, .cust 2] :=
      (hsp _).1 (ho.path (s.heap (.cust 2)) ⟨_, (hsp _).2 rfl⟩)
    refine ⟨(s.heap (.cust 2)).cost, ?_, ?_⟩
    · simp [cwRun, hs, bind, Except.bind, pure, Except.pure, hids, hord, hp, routeOf]
    · simp [duration, travel, legSum, exC09]
      norm_num

/-- **C09 fails when a service time alone exceeds the limit**: `check_feasibility` ignores service times and the
heuristic never checks round trips.  One customer with service time 5, all travel times 0, duration 2. -/
theorem C09_service_counterexample (o : CWOracle) (ho : o.Valid) :
    let G : Net := { exC09 with
      nodes := [.source, .cust 1, .sink]
      succ := fun u => match u with | .source => [.cust 1, .sink] | .cust 1 => [.sink] | _ => []
      time := fun _ _ => 0
      service := fun v => if v = .cust 1 then 5 else 0 }
    ∃ val rs, cwRun G { duration := some 2 } o = .ok (val, rs) ∧ ∃ r ∈ rs, duration G r = 5 := by
  intro G
  have hw : WellFormed G := by
    refine ⟨by decide, ?_, ?_, by decide, by decide, ?_, rfl⟩
    · intro u; simp only [G]; split <;> decide
    · intro u; simp only [G, exC09]; split <;> first | decide | simp
    · intro u; simp only [G]; split <;> decide
  have hD : DepotConnected G := by
    intro n hn
    simp only [G, List.mem_cons, Node.cust.injEq, reduceCtorEq, List.not_mem_nil, or_false, false_or] at hn
    subst hn
    decide
  have hK : CostsFor G 1 := by intro u v _; simp [G, exC09]
  obtain ⟨val, rs, h1, h2, h3⟩ := C07_clarke_wright_partition G { duration := some 2 } o hw hD hK ho
  refine ⟨val, rs, h1, ?_⟩
  have hone := h3 (.cust 1) (by decide)
  have hmem : Node.cust 1 ∈ rs.flatten := by
    have hne : rs.flatten.filter (fun x => x = Node.cust 1) ≠ [] := by
      intro hh; rw [hh] at hone; simp at hone
    obtain ⟨x, hx⟩ := List.exists_mem_of_ne_nil _ hne
    simp only [List.mem_filter, decide_eq_true_eq] at hx
    exact hx.2 ▸ hx.1
  obtain ⟨r, hr, hrm⟩ := List.mem_flatten.1 hmem
  refine ⟨r, hr, ?_⟩
  obtain ⟨⟨mid, rfl, hmid, _⟩, hnd⟩ := h2 r hr
  have hmid1 : mid = [.cust 1] := by
    have hm : ∀ v ∈ mid, v = .cust 1 := by
      intro v hv
      obtain ⟨⟨n, rfl⟩, hn⟩ := hmid v hv
      simpa [G] using hn
    have hnd' : mid.Nodup := (List.nodup_append.1 (List.nodup_cons.1 hnd).2).1
    have hin : Node.cust 1 ∈ mid := by simpa [routeOf] using hrm
    cases mid with
    | nil => simp at hin
    | cons a mid =>
      have ha := hm a (by simp)
      subst ha
      cases mid with
      | nil => rfl
      | cons b mid =>
        have hb := hm b (by simp)
        subst hb
        simp at hnd'
  subst hmid1
  simp [duration, travel, legSum, routeOf, G]

/-- **C10 fails without the detour condition**: merging customers 1 and 2 has saving -8 but is carried out.  Two
customers, arc 1-2 costs 10, all other arcs cost 1: the heuristic reports 12 while two round trips cost 4. -/
theorem C10_negative_saving_counterexample (o : CWOracle) (ho : o.Valid) :
    let G : Net := { exC09 with
      succ := fun u => match u with
        | .source => [.cust 1, .cust 2, .sink] | .cust 1 => [.cust 2, .sink] | .cust 2 => [.sink] | _ => []
      cost := fun u v => if u = .cust 1 ∧ v = .cust 2 then [10] else [1] }
    ∃ rs, cwRun G {} o = .ok (12, rs) ∧ (G.customers.map (fun v => Spec.cost G 0 [.source, v, .sink])).sum = 4 := by
  intro G
  have hw : WellFormed G := by
    refine ⟨by decide, ?_, ?_, by decide, by decide, ?_, rfl⟩
    · intro u; simp only [G]; split <;> decide
    · intro u; simp only [G, exC09]; split <;> first | decide | simp
    · intro u; simp only [G]; split <;> decide
  have hD : DepotConnected G := by
    intro n hn
    simp only [G, exC09, List.mem_cons, Node.cust.injEq, reduceCtorEq, List.not_mem_nil, or_false, false_or] at hn
    rcases hn with rfl | rfl <;> decide
  have hK : CostsFor G 1 := by intro u v _; simp only [G]; split <;> simp
  obtain ⟨s, L, hs, _⟩ := cwLoop_ok (cfg := {}) hw hD hK
  have hd : ((cwLoop G {}).toOption.map (fun s => (s.route (.cust 1), s.route (.cust 2),
      (s.heap (s.route (.cust 1))).cost))) = some (.cust 1, .cust 1, 12) := by decide +kernel
  rw [hs] at hd
  simp only [Except.toOption, Option.map_some, Option.some.injEq, Prod.mk.injEq] at hd
  obtain ⟨d1, d2, d3⟩ := hd
  have hcust : G.customers = [.cust 1, .cust 2] := by decide
  have hids : (G.customers.map s.route).dedup = [.cust 1] := by
    rw [hcust]; simp only [List.map_cons, List.map_nil, d1, d2]; decide
  have hord : o.order [.cust 1] = [.cust 1] := List.perm_singleton.1 (ho.order _)
  rw [d1] at d3
  refine ⟨[o.path (s.heap (.cust 1))], ?_, ?_⟩
  · simp [cwRun, hs, bind, Except.bind, pure, Except.pure, hids, hord, d3]
  · rw [hcust]
    simp [Spec.cost, legSum, G]
    norm_num

end Vrpy
