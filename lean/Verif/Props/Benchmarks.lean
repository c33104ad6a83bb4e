import Verif.Proofs.Benchmarks
import Verif.Props.Constructor
import Verif.Props.EndToEndWindowsLP
import Verif.Props.TimeChecks

/-!
# C82: the benchmark files
-/

namespace Vrpy

namespace Benchmarks

open Spec

/-- `d` is the distance of two points, rounded to the nearest integer (in the middle, to the even one). -/
def _root_.Vrpy.Spec.Rounded (d : Nat) (p q : ℚ × ℚ) : Prop :=
  |(d : ℝ) - euclid p q| ≤ 1 / 2 ∧ (|(d : ℝ) - euclid p q| = 1 / 2 → d % 2 = 0)

/-- The row of the file a node comes from: the first one for Source and Sink. -/
def _root_.Vrpy.Spec.RowOf (r0 : Row) (rest : List Row) (v : Node) (r : Row) : Prop :=
  ((v = .source ∨ v = .sink) ∧ r = r0) ∨ (v = .cust r.name ∧ r ∈ rest)

/-- Everything about the graph of a Solomon file. -/
structure _root_.Vrpy.Spec.IsSolomonGraph (r0 : Row) (rest : List Row) (G : DiGraph) : Prop where
  wf : G.WF
  nodes : G.nodes = .source :: .sink :: rest.map (fun r => .cust r.name)
  arcs : ∀ u v, v ∈ G.succ u ↔ u ∈ G.nodes ∧ v ∈ G.nodes ∧ u ≠ .sink ∧ v ≠ .source ∧ u ≠ v
  attributes : ∀ v r, RowOf r0 rest v r → (G.nd v).demand = some (r.demand : ℚ) ∧ (G.nd v).lower = some (r.lower : ℚ) ∧
    (G.nd v).upper = some (r.upper : ℚ) ∧ (G.nd v).serviceTime = some (r.service : ℚ) ∧ (G.nd v).collect = none
  lengths : ∀ u v ru rv, v ∈ G.succ u → RowOf r0 rest u ru → RowOf r0 rest v rv →
    ∃ d : Nat, Rounded d (ru.x, ru.y) (rv.x, rv.y) ∧ (G.ed u v).cost = some (.scalar d) ∧ (G.ed u v).time = some (d : ℚ)

/-- **C82, the network of a Solomon file.**  If the first row is the depot and no name occurs twice, then the graph has the nodes Source, Sink and the customers in
the order of the file, Sink is a copy of Source, there is an arc between any two nodes except into Source and out of Sink, and cost and time
of an arc are the rounded distance. -/
theorem C82_solomon_graph {r0 : Row} {rest : List Row} (h0 : r0.name = 0) (hnd : ((r0 :: rest).map Row.name).Nodup) :
    IsSolomonGraph r0 rest (solomon (r0 :: rest)) := by
  obtain ⟨h1, h2, h3⟩ := solomonNodes_spec h0 hnd
  have hnodup : (solomonNodes (r0 :: rest)).nodes.Nodup := by
    rw [h1]
    rw [List.map_cons, List.nodup_cons] at hnd
    refine List.nodup_cons.2 ⟨by simp, List.nodup_cons.2 ⟨by simp, ?_⟩⟩
    rw [show (fun r : Row => Node.cust r.name) = Node.cust ∘ Row.name from rfl, ← List.map_map]
    exact hnd.2.map (fun a b h => Node.cust.inj h)
  have hrow : ∀ v r, RowOf r0 rest v r → (solomonNodes (r0 :: rest)).pos v = (r.x, r.y) ∧ (solomonNodes (r0 :: rest)).nd v = r.data := by
    rintro v r (⟨hv, rfl⟩ | ⟨rfl, hr⟩)
    · exact h3 v hv
    · exact h2 r hr
  obtain ⟨g1, g2, g3, g4, g5⟩ := complete_spec (solomonNodes (r0 :: rest)) (fun u v =>
    { cost := some (.scalar (distance ((solomonNodes (r0 :: rest)).pos u) ((solomonNodes (r0 :: rest)).pos v)))
      time := some (distance ((solomonNodes (r0 :: rest)).pos u) ((solomonNodes (r0 :: rest)).pos v) : ℚ) }) hnodup
  refine ⟨g3, g1.trans h1, fun u v => by rw [show (solomon (r0 :: rest)).nodes = _ from g1]; exact g4 u v, ?_, ?_⟩
  · intro v r hr
    have : (solomon (r0 :: rest)).nd v = r.data := by
      rw [show (solomon (r0 :: rest)).nd = _ from g2]
      exact (hrow v r hr).2
    rw [this]
    exact ⟨rfl, rfl, rfl, rfl, rfl⟩
  · intro u v ru rv huv hu hv
    have := g5 u v huv
    refine ⟨distance (ru.x, ru.y) (rv.x, rv.y), distance_near _ _, ?_⟩
    rw [show (solomon (r0 :: rest)).ed u v = _ from this, (hrow u ru hu).1, (hrow v rv hv).1]
    exact ⟨rfl, rfl⟩

/-- **C82**, a file without the depot: the constructor refuses the graph. -/
theorem C82_no_depot {rows : List Row} (h : ∀ r ∈ rows, r.name ≠ 0) : checkVrp (solomon rows) = .error .keyError := by
  have hnodes : ∀ (rows : List Row) (P : Plane), P.nodes.Nodup → Node.source ∉ P.nodes → (∀ r ∈ rows, r.name ≠ 0) →
      (rows.foldl addRow P).nodes.Nodup ∧ Node.source ∉ (rows.foldl addRow P).nodes := by
    intro rows
    induction rows with
    | nil => exact fun P h1 h2 _ => ⟨h1, h2⟩
    | cons r rows ih =>
      intro P h1 h2 h3
      rw [List.foldl_cons]
      have hr : r.name ≠ 0 := h3 r (by simp)
      apply ih
      · simp only [addRow, Row.node, if_neg hr, reduceCtorEq, if_false, Plane.addNode]
        split
        · exact h1
        · rename_i hn
          rw [List.nodup_append]
          refine ⟨h1, by simp, ?_⟩
          intro a ha b hb
          obtain rfl : b = _ := by simpa using hb
          rintro rfl
          exact hn ha
      · simp only [addRow, Row.node, if_neg hr, reduceCtorEq, if_false, Plane.addNode]
        split
        · exact h2
        · simpa using h2
      · exact fun r hr => h3 r (List.mem_cons_of_mem _ hr)
  obtain ⟨h1, h2⟩ := hnodes rows {} List.nodup_nil (by simp) h
  obtain ⟨g1, _⟩ := complete_spec (solomonNodes rows) (fun u v =>
    { cost := some (.scalar (distance ((solomonNodes rows).pos u) ((solomonNodes rows).pos v)))
      time := some (distance ((solomonNodes rows).pos u) ((solomonNodes rows).pos v) : ℚ) }) h1
  have hs : Node.source ∉ (solomon rows).nodes := by
    rw [show (solomon rows).nodes = _ from g1]
    exact h2
  simp [checkVrp, checkDepot, hs, bind, Except.bind]

/-- The problem the benchmarks solve (`benchmarks/tests/test_cvrptw_solomon.py:16-18`). -/
def _root_.Vrpy.Spec.solomonProblem (rows : List Row) (capacity : Int) : Vrp where
  G := solomon rows
  loadCapacity := .one (.int capacity)
  timeWindows := true

/-- A file as it should be: first the depot, without service time; then customers with different names; no window closes before it opens. -/
structure _root_.Vrpy.Spec.SolomonFile (r0 : Row) (rest : List Row) : Prop where
  depot : r0.name = 0
  names : ((r0 :: rest).map Row.name).Nodup
  customers : rest ≠ []
  service : r0.service = 0
  windows : ∀ r ∈ r0 :: rest, r.lower ≤ r.upper

theorem rowOf_of_mem {r0 : Row} {rest : List Row} {G : DiGraph} (H : IsSolomonGraph r0 rest G) {v : Node} (hv : v ∈ G.nodes) :
    ∃ r, RowOf r0 rest v r ∧ r ∈ r0 :: rest := by
  rw [H.nodes] at hv
  rcases List.mem_cons.1 hv with rfl | hv
  · exact ⟨r0, Or.inl ⟨Or.inl rfl, rfl⟩, by simp⟩
  rcases List.mem_cons.1 hv with rfl | hv
  · exact ⟨r0, Or.inl ⟨Or.inr rfl, rfl⟩, by simp⟩
  obtain ⟨r, hr, rfl⟩ := List.mem_map.1 hv
  exact ⟨r, Or.inr ⟨rfl, hr⟩, List.mem_cons_of_mem _ hr⟩

/-- The constructor accepts the graph of such a file and adds no arc. -/
theorem complete_accepted {G : DiGraph} (hwf : G.WF) (hsrc : Node.source ∈ G.nodes) (hsnk : Node.sink ∈ G.nodes)
    (harcs : ∀ u v, v ∈ G.succ u ↔ u ∈ G.nodes ∧ v ∈ G.nodes ∧ u ≠ .sink ∧ v ≠ .source ∧ u ≠ v)
    (hcost : ∀ u v, v ∈ G.succ u → (G.ed u v).cost ≠ none) :
    ∃ G', checkVrp G = .ok G' ∧ G'.nodes = G.nodes ∧ G'.nd = G.nd ∧ (∀ u, G'.succ u = G.succ u) ∧
      ∀ u v, v ∈ G.succ u → G'.ed u v = G.ed u v := by
  obtain ⟨G', hG'⟩ := ((C02_constructor_rejects_exactly G hwf).1).2
    ⟨hsrc, hsnk, fun u h => ((harcs _ _).1 h).2.2.2.1 rfl, fun v h => ((harcs _ _).1 h).2.2.1 rfl,
      Or.inr ((harcs _ _).2 ⟨hsrc, hsnk, by simp, by simp, by simp⟩), hcost⟩
  obtain ⟨h1, _, _, h4, h5, _, _, h8, h9, h10, h11, h12⟩ := C01_constructor_completes G G' hwf hG'
  refine ⟨G', hG', h8, h9, ?_, h11⟩
  intro u
  obtain ⟨t, ht⟩ := h10 u
  rw [← ht]
  cases t with
  | nil => simp
  | cons v t =>
    exfalso
    have hv : v ∈ G'.succ u := by rw [← ht]; simp
    have hn : v ∉ G.succ u := by
      have := h1.succ_nodup u
      rw [← ht, List.nodup_append] at this
      exact fun h => this.2.2 v h v (by simp) rfl
    obtain ⟨hu', hv'⟩ := h1.succ_mem u v hv
    rw [h8] at hu' hv'
    refine hn ((harcs u v).2 ⟨hu', hv', ?_, ?_, ?_⟩)
    · rintro rfl; exact h5 v hv
    · rintro rfl; exact h4 u hv
    · rcases (h12 u v hv hn).1 with ⟨rfl, n, rfl⟩ | ⟨rfl, n, rfl⟩ <;> simp

/-- **C82, the problem of a Solomon file.**  The constructor accepts it and adds no arc, and everything holds that the theorems about whole runs with time
windows (C60, C68, C70, …) assume of a problem. -/
theorem C82_solomon_problem {r0 : Row} {rest : List Row} (F : SolomonFile r0 rest) (capacity : Int) :
    WindowedOrCollecting (solomonProblem (r0 :: rest) capacity) ∧
    ∃ o, Obj.create (solomonProblem (r0 :: rest) capacity) = .ok o ∧ o.P.G.nodes = (solomon (r0 :: rest)).nodes ∧
      o.P.G.nd = (solomon (r0 :: rest)).nd ∧ ∀ u, o.P.G.succ u = (solomon (r0 :: rest)).succ u := by
  have H := C82_solomon_graph F.depot F.names
  obtain ⟨r1, hr1⟩ := List.exists_mem_of_ne_nil _ F.customers
  have hsrc : Node.source ∈ (solomon (r0 :: rest)).nodes := by rw [H.nodes]; simp
  have hsnk : Node.sink ∈ (solomon (r0 :: rest)).nodes := by rw [H.nodes]; simp
  have hcost : ∀ u v, v ∈ (solomon (r0 :: rest)).succ u → ∃ c, ((solomon (r0 :: rest)).ed u v).cost = some (.scalar c) := by
    intro u v huv
    obtain ⟨ru, hu, _⟩ := rowOf_of_mem H ((H.arcs u v).1 huv).1
    obtain ⟨rv, hv, _⟩ := rowOf_of_mem H ((H.arcs u v).1 huv).2.1
    obtain ⟨d, _, hd, _⟩ := H.lengths u v ru rv huv hu hv
    exact ⟨d, hd⟩
  have hd0 := H.attributes .source r0 (Or.inl ⟨Or.inl rfl, rfl⟩)
  have hd1 := H.attributes .sink r0 (Or.inl ⟨Or.inr rfl, rfl⟩)
  refine ⟨?_, ?_⟩
  · refine ⟨⟨H.wf, ⟨r1.name, ?_⟩, ?_, ?_, ?_, Or.inl rfl, ?_, ?_, fun h => (by cases h), rfl, ?_⟩, rfl⟩
    · show Node.cust r1.name ∈ (solomon (r0 :: rest)).nodes
      rw [H.nodes]
      exact List.mem_cons_of_mem _ (List.mem_cons_of_mem _ (List.mem_map.2 ⟨r1, hr1, rfl⟩))
    · intro _ u v huv
      obtain ⟨c, hc⟩ := hcost u v huv
      exact ⟨c, Or.inl hc⟩
    · intro v hv
      obtain ⟨r, hr, _⟩ := rowOf_of_mem H hv
      show 0 ≤ (((solomon (r0 :: rest)).nd v).demand).getD 0
      rw [(H.attributes v r hr).1]
      simp
    · show (((solomon (r0 :: rest)).nd .source).serviceTime).getD 0 = 0 ∧ (((solomon (r0 :: rest)).nd .sink).serviceTime).getD 0 = 0
      rw [hd0.2.2.2.1, hd1.2.2.2.1, F.service]
      simp
    · intro _
      refine ⟨?_, ?_⟩
      · show (solomon (r0 :: rest)).nodes.head? = _
        rw [H.nodes]
        rfl
      · show 0 ≤ (((solomon (r0 :: rest)).nd .source).lower).getD 0
        rw [hd0.2.1]
        simp
    · intro _ v hv _ _
      obtain ⟨r, hr, hmem⟩ := rowOf_of_mem H hv
      show (((solomon (r0 :: rest)).nd v).lower).getD 0 ≤ (((solomon (r0 :: rest)).nd v).upper).getD 0
      rw [(H.attributes v r hr).2.1, (H.attributes v r hr).2.2.1]
      simpa using F.windows r hmem
    · intro _
      simp only [solomonProblem, userCapacities]
      split <;> simp
  · obtain ⟨G', hG', g1, g2, g3, _⟩ := complete_accepted H.wf hsrc hsnk H.arcs
      (fun u v h => by obtain ⟨c, hc⟩ := hcost u v h; rw [hc]; simp)
    refine ⟨{ P := { solomonProblem (r0 :: rest) capacity with G := G' } }, ?_, g1, g2, g3⟩
    unfold Obj.create
    rw [show checkVrp (solomonProblem (r0 :: rest) capacity).G = .ok G' from hG']
    rfl

/-- **C82, rounding.**  Rounded distances violate the triangle inequality by at most 1. -/
theorem C82_rounding (p q r : ℚ × ℚ) {d1 d2 d3 : Nat} (h1 : Rounded d1 p q) (h2 : Rounded d2 q r) (h3 : Rounded d3 p r) :
    d3 ≤ d1 + d2 + 1 := by
  have a1 := abs_le.1 h1.1
  have a2 := abs_le.1 h2.1
  have a3 := abs_le.1 h3.1
  have h4 := euclid_triangle p q r
  have h5 : (2 : ℝ) * d3 ≤ 2 * d1 + 2 * d2 + 3 := by linarith [a1.1, a1.2, a2.1, a2.2, a3.1, a3.2]
  have h6 : 2 * d3 ≤ 2 * d1 + 2 * d2 + 3 := by exact_mod_cast h5
  omega

/-- **C82, times.**  If every customer of the file needs some service, then, although distances are rounded, the times make sense (driving straight is not slower than
through another customer, service included), and going from a customer to another takes time: so windows are tightened without loss (C06), and pricing
by LP has no cycles. -/
theorem C82_times {r0 : Row} {rest : List Row} (F : SolomonFile r0 rest) (hs : ∀ r ∈ rest, 1 ≤ r.service) (capacity : Int) :
    TimesMakeSense (solomonProblem (r0 :: rest) capacity) ∧ TravelTakesTime (solomonProblem (r0 :: rest) capacity) := by
  have H := C82_solomon_graph F.depot F.names
  have hsrc : Node.source ∈ (solomon (r0 :: rest)).nodes := by rw [H.nodes]; simp
  have hsnk : Node.sink ∈ (solomon (r0 :: rest)).nodes := by rw [H.nodes]; simp
  have hsv : ∀ n, Node.cust n ∈ (solomon (r0 :: rest)).nodes → ∃ r ∈ rest, r.name = n ∧
      userService (solomon (r0 :: rest)) (.cust n) = (r.service : ℚ) := by
    intro n hn
    obtain ⟨r, hr, _⟩ := rowOf_of_mem H hn
    rcases hr with ⟨h | h, _⟩ | ⟨h, hmem⟩
    · cases h
    · cases h
    · obtain rfl := Node.cust.inj h
      refine ⟨r, hmem, rfl, ?_⟩
      unfold userService
      rw [(H.attributes _ r (Or.inr ⟨rfl, hmem⟩)).2.2.2.1]
      rfl
  have hlen : ∀ u v ru rv, u ∈ (solomon (r0 :: rest)).nodes → v ∈ (solomon (r0 :: rest)).nodes → u ≠ .sink → v ≠ .source → u ≠ v →
      RowOf r0 rest u ru → RowOf r0 rest v rv →
      ∃ d : Nat, Rounded d (ru.x, ru.y) (rv.x, rv.y) ∧ userTime (solomon (r0 :: rest)) u v = (d : ℚ) := by
    intro u v ru rv hu hv h1 h2 h3 hru hrv
    have harc := (H.arcs u v).2 ⟨hu, hv, h1, h2, h3⟩
    obtain ⟨d, hd, _, ht⟩ := H.lengths u v ru rv harc hru hrv
    refine ⟨d, hd, ?_⟩
    unfold userTime
    rw [if_pos harc, ht]
    rfl
  have hq : ∀ v ∈ (solomon (r0 :: rest)).nodes, 0 ≤ userService (solomon (r0 :: rest)) v := by
    intro v hv
    obtain ⟨r, hr, _⟩ := rowOf_of_mem H hv
    unfold userService
    rw [(H.attributes v r hr).2.2.2.1]
    simp
  have hS : RowOf r0 rest .source r0 := Or.inl ⟨Or.inl rfl, rfl⟩
  have hT : RowOf r0 rest .sink r0 := Or.inl ⟨Or.inr rfl, rfl⟩
  have hd0 := H.attributes .source r0 hS
  have hd1 := H.attributes .sink r0 hT
  refine ⟨⟨hq, ?_, ?_, ?_, ?_⟩, ?_⟩
  · intro m n hmn
    obtain ⟨hm, hn, _, _, hne⟩ := (H.arcs _ _).1 hmn
    obtain ⟨rm, hrm, rfl, hsm⟩ := hsv m hm
    obtain ⟨rn, hrn, rfl, _⟩ := hsv n hn
    obtain ⟨d1, a1, b1⟩ := hlen .source (.cust rm.name) r0 rm hsrc hm (by simp) (by simp) (by simp) hS (Or.inr ⟨rfl, hrm⟩)
    obtain ⟨d2, a2, b2⟩ := hlen (.cust rm.name) (.cust rn.name) rm rn hm hn (by simp) (by simp) hne (Or.inr ⟨rfl, hrm⟩) (Or.inr ⟨rfl, hrn⟩)
    obtain ⟨d3, a3, b3⟩ := hlen .source (.cust rn.name) r0 rn hsrc hn (by simp) (by simp) (by simp) hS (Or.inr ⟨rfl, hrn⟩)
    have := C82_rounding _ _ _ a1 a2 a3
    have h1 := hs rm hrm
    show userTime (solomon (r0 :: rest)) _ _ ≤ userTime (solomon (r0 :: rest)) _ _ + userService (solomon (r0 :: rest)) _ + userTime (solomon (r0 :: rest)) _ _
    rw [b1, b2, b3, hsm]
    have h2 : d3 ≤ d1 + rm.service + d2 := by omega
    exact_mod_cast h2
  · intro m n hmn
    obtain ⟨hm, hn, _, _, hne⟩ := (H.arcs _ _).1 hmn
    obtain ⟨rm, hrm, rfl, hsm⟩ := hsv m hm
    obtain ⟨rn, hrn, rfl, _⟩ := hsv n hn
    obtain ⟨d1, a1, b1⟩ := hlen (.cust rm.name) (.cust rn.name) rm rn hm hn (by simp) (by simp) hne (Or.inr ⟨rfl, hrm⟩) (Or.inr ⟨rfl, hrn⟩)
    obtain ⟨d2, a2, b2⟩ := hlen (.cust rn.name) .sink rn r0 hn hsnk (by simp) (by simp) (by simp) (Or.inr ⟨rfl, hrn⟩) hT
    obtain ⟨d3, a3, b3⟩ := hlen (.cust rm.name) .sink rm r0 hm hsnk (by simp) (by simp) (by simp) (Or.inr ⟨rfl, hrm⟩) hT
    have := C82_rounding _ _ _ a1 a2 a3
    have h1 := hs rm hrm
    show userTime (solomon (r0 :: rest)) _ _ ≤ userService (solomon (r0 :: rest)) _ + userTime (solomon (r0 :: rest)) _ _ + userTime (solomon (r0 :: rest)) _ _
    rw [b1, b2, b3, hsm]
    have h2 : d3 ≤ rm.service + d1 + d2 := by omega
    exact_mod_cast h2
  · show (((solomon (r0 :: rest)).nd .source).lower).getD 0 ≤ (((solomon (r0 :: rest)).nd .source).upper).getD 0
    rw [hd0.2.1, hd0.2.2.1]
    simpa using F.windows r0 (by simp)
  · intro _
    refine ⟨.source, hsrc, by simp, ?_⟩
    obtain ⟨d, _, hd⟩ := hlen .source .sink r0 r0 hsrc hsnk (by simp) (by simp) (by simp) hS hT
    show (((solomon (r0 :: rest)).nd .sink).lower).getD 0 ≤ (((solomon (r0 :: rest)).nd .source).upper).getD 0 +
      userService (solomon (r0 :: rest)) .source + userTime (solomon (r0 :: rest)) .source .sink
    have h1 := hq .source hsrc
    rw [hd1.2.1, hd0.2.2.1, hd]
    have h2 : (r0.lower : ℚ) ≤ r0.upper := by exact_mod_cast F.windows r0 (by simp)
    have h3 : (0 : ℚ) ≤ (d : ℚ) := Nat.cast_nonneg d
    simp only [Option.getD_some]
    linarith
  · intro m n hmn
    obtain ⟨hm, hn, _, _, hne⟩ := (H.arcs _ _).1 hmn
    obtain ⟨rm, hrm, rfl, hsm⟩ := hsv m hm
    obtain ⟨rn, hrn, rfl, _⟩ := hsv n hn
    obtain ⟨d2, a2, b2⟩ := hlen (.cust rm.name) (.cust rn.name) rm rn hm hn (by simp) (by simp) hne (Or.inr ⟨rfl, hrm⟩) (Or.inr ⟨rfl, hrn⟩)
    show 0 < userService (solomon (r0 :: rest)) _ + userTime (solomon (r0 :: rest)) _ _
    rw [hsm, b2]
    have h1 : 0 < rm.service + d2 := by have := hs rm hrm; omega
    exact_mod_cast h1

/-- The plan in the words of the file: every customer is on one route, the routes are on time, the vehicles can carry the loads, `best_value` is the sum of the rounded
distances driven. -/
structure _root_.Vrpy.Spec.SolvesFile (r0 : Row) (rest : List Row) (capacity : Int) (o' : Obj) : Prop where
  once : ∀ r ∈ rest, (o'.solution.routes.map (fun p => p.2.count (.cust r.name))).sum = 1
  routes : ∀ i r, (i, r) ∈ o'.solution.routes → UserOnTime (solomon (r0 :: rest)) r ∧
    ∃ mid, r = routeOf mid ∧ (∀ v ∈ mid, ∃ s ∈ rest, v = .cust s.name) ∧
      (capacity ≠ 0 → (mid.map (userDemand (solomon (r0 :: rest)))).sum ≤ capacity)
  value : ∃ N, o'.P.H = some N ∧ bestValue N false 0 o'.solution =
    .ok ((o'.solution.routes.map (fun p => legSum (userTime (solomon (r0 :: rest))) p.2)).sum)

theorem solvesFile_of {r0 : Row} {rest : List Row} (F : SolomonFile r0 rest) {capacity : Int} {o' : Obj} {K : Nat} {N : Net}
    (hK : K = 1) (hN : o'.P.H = some N) (hS : SolvesVariant (solomonProblem (r0 :: rest) capacity) K o'.solution)
    (ht : ∀ i r, (i, r) ∈ o'.solution.routes → UserOnTime (solomon (r0 :: rest)) r)
    (hv : bestValue N false 0 o'.solution =
      .ok ((userCosts (solomonProblem (r0 :: rest) capacity) o'.solution).sum + 0 * o'.solution.dropped.length)) :
    SolvesFile r0 rest capacity o' := by
  have H := C82_solomon_graph F.depot F.names
  have hdrop : o'.solution.dropped = [] := hS.penalty rfl
  have hG : (solomonProblem (r0 :: rest) capacity).G = solomon (r0 :: rest) := rfl
  refine ⟨?_, ?_, N, hN, ?_⟩
  · intro r hr
    refine hS.once r.name ?_ (by rw [hdrop]; simp)
    rw [hG, H.nodes]
    exact List.mem_cons_of_mem _ (List.mem_cons_of_mem _ (List.mem_map.2 ⟨r, hr, rfl⟩))
  · intro i r hir
    refine ⟨ht i r hir, ?_⟩
    obtain ⟨mid, rfl, _, hmid, _, k, hk, _, mid', he, hl⟩ := hS.routes i r hir
    have he : mid = mid' := by
      simp only [routeOf, List.cons.injEq, true_and] at he
      exact List.append_cancel_right he
    subst he
    refine ⟨mid, rfl, ?_, ?_⟩
    · intro v hv
      obtain ⟨⟨n, rfl⟩, hn⟩ := hmid v hv
      rw [hG, H.nodes] at hn
      simp only [List.mem_cons, reduceCtorEq, List.mem_map, Node.cust.injEq, false_or] at hn
      obtain ⟨s, hs, rfl⟩ := hn
      exact ⟨s, hs, rfl⟩
    · intro hcap
      have hcaps : userCapacities (solomonProblem (r0 :: rest) capacity).loadCapacity = [(capacity : ℚ)] := by
        simp [solomonProblem, userCapacities, hcap]
      have hk0 : k = 0 := by omega
      have := hl.load
      rw [hcaps, hk0] at this
      obtain ⟨c, hc, hle⟩ := this (by simp)
      obtain rfl : (capacity : ℚ) = c := by simpa using hc
      exact hle
  · rw [hv, zero_mul, add_zero]
    congr 2
    unfold userCosts
    apply List.map_congr_left
    rintro ⟨i, r⟩ hir
    obtain ⟨mid, rfl, hnd, hmid, ha, k, hk, hty, _⟩ := hS.routes i r hir
    have hk0 : k = 0 := by omega
    simp only [hty, Option.getD_some, hk0]
    apply legSum_congr
    intro u v huv
    have harc : v ∈ (solomon (r0 :: rest)).succ u := by
      obtain ⟨pre, post, hpp⟩ := mem_consecutive_iff.1 huv
      have hmem : ∀ n, Node.cust n ∈ routeOf mid → Node.cust n ∈ (solomon (r0 :: rest)).nodes := by
        intro n hn
        simp only [routeOf, List.mem_cons, reduceCtorEq, List.mem_append, List.not_mem_nil, or_false, false_or] at hn
        exact (hmid _ hn).2
      have hsrc : Node.source ∈ (solomon (r0 :: rest)).nodes := by rw [H.nodes]; simp
      have hsnk : Node.sink ∈ (solomon (r0 :: rest)).nodes := by rw [H.nodes]; simp
      rcases (along_iff _ _).1 ha u v huv with h | ⟨rfl, n, rfl⟩ | ⟨rfl, n, rfl⟩ | ⟨rfl, rfl⟩
      · exact h
      · exact (H.arcs _ _).2 ⟨hsrc, hmem n (by rw [hpp]; simp), by simp, by simp, by simp⟩
      · exact (H.arcs _ _).2 ⟨hmem n (by rw [hpp]; simp), hsnk, by simp, by simp, by simp⟩
      · exact (H.arcs _ _).2 ⟨hsrc, hsnk, by simp, by simp, by simp⟩
    obtain ⟨ru, hru, _⟩ := rowOf_of_mem H ((H.arcs u v).1 harc).1
    obtain ⟨rv, hrv, _⟩ := rowOf_of_mem H ((H.arcs u v).1 harc).2.1
    obtain ⟨d, _, hc, htm⟩ := H.lengths u v ru rv harc hru hrv
    unfold userArcCost userTime
    rw [hG, if_pos harc, if_pos harc, hc, htm]
    simp [userCost, solomonProblem, userFixedCost]

/-- **C82, a Solomon file solved.**  `solve()` without preassigned routes and without diving, with initial routes or without (on time and without repeated nodes), with cspy, or
by LP if every customer of the file needs some service: however the solvers behave within their contracts, if it returns, the routes visit every customer of the file once, with
vehicles that can carry the load, everywhere on time, and `best_value` is the sum of the rounded distances driven. -/
theorem C82_solomon_solve {r0 : Row} {rest : List Row} (F : SolomonFile r0 rest) {capacity : Int} {w : World} {a : SolveArgs} {fuel : Nat}
    {o o' : Obj} (hw : (WorldOk w ∧ a.cspy = true) ∨ (LpSound w ∧ a.cspy = false ∧ ∀ r ∈ rest, 1 ≤ r.service))
    (hpre : a.preassignments = []) (hdive : a.dive = false) (hheur : a.heuristicOnly = false)
    (hinit : ∀ r ∈ a.initialRoutes, r.Nodup ∧ UserOnTime (solomon (r0 :: rest)) r)
    (hc : Obj.create (solomonProblem (r0 :: rest) capacity) = .ok o) (h : o.solve w a fuel = .ok (some o')) :
    SolvesFile r0 rest capacity o' := by
  have hP := (C82_solomon_problem F capacity).1
  have hinit' : ∀ r ∈ a.initialRoutes, r.Nodup ∧ ∀ mid k, r = routeOf mid →
      WithinCapacity (userCapacities (solomonProblem (r0 :: rest) capacity).loadCapacity) k
        (mid.map (userDemand (solomonProblem (r0 :: rest) capacity).G)).sum →
      RouteLimits (solomonProblem (r0 :: rest) capacity) k mid := by
    intro r hr
    refine ⟨(hinit r hr).1, ?_⟩
    rintro mid k rfl hl
    exact ⟨fun n hn => (by cases hn), hl, fun _ => (hinit _ hr).2, fun hd => (by cases hd), fun _ d hd => (by cases hd)⟩
  rcases hw with ⟨hw, hcspy⟩ | ⟨hw, hcspy, hs⟩
  · obtain ⟨K, N, hK, hN, hS, ht, hv, _⟩ := C60_time_windows_partial hw hP rfl hpre hdive hheur hcspy hinit' hc h
    exact solvesFile_of F (hK rfl) hN hS ht (hv rfl)
  · obtain ⟨K, N, hK, hN, hS, ht, hv, _⟩ := C60_lp_partial hw hP rfl (C82_times F hs capacity).2 hpre hdive hheur hcspy hinit' hc h
    exact solvesFile_of F (hK rfl) hN hS ht (hv rfl)

/-- With `n` customers there are `n (n + 1) + 1` arcs (as the tests of both datasets say, where the depot counts as a vertex). -/
theorem C82_number_of_arcs {G : DiGraph} {names : List Nat} (hwf : G.WF) (hn : G.nodes = .source :: .sink :: names.map Node.cust)
    (harcs : ∀ u v, v ∈ G.succ u ↔ u ∈ G.nodes ∧ v ∈ G.nodes ∧ u ≠ .sink ∧ v ≠ .source ∧ u ≠ v) :
    (G.nodes.map (fun u => (G.succ u).length)).sum = names.length * (names.length + 1) + 1 := by
  have hnodup := hwf.nodes_nodup
  have hs : ∀ u ∈ G.nodes, u ≠ .sink → (G.succ u).length = (((G.nodes.erase .source).erase u)).length := by
    intro u hu hne
    apply List.Perm.length_eq
    rw [List.perm_ext_iff_of_nodup (hwf.succ_nodup u) ((hnodup.erase _).erase _)]
    intro v
    rw [harcs, (hnodup.erase _).mem_erase_iff, hnodup.mem_erase_iff]
    tauto
  have hlen : (G.nodes.erase .source).length = names.length + 1 := by rw [hn]; simp
  have h1 : (G.succ .source).length = names.length + 1 := by
    rw [hs _ (by rw [hn]; simp) (by simp), List.erase_of_not_mem, hlen]
    rw [hnodup.mem_erase_iff]
    simp
  have h2 : (G.succ .sink).length = 0 := by
    rw [List.length_eq_zero_iff, List.eq_nil_iff_forall_not_mem]
    intro v hv
    exact ((harcs _ _).1 hv).2.2.1 rfl
  have h3 : ∀ n ∈ names, (G.succ (.cust n)).length = names.length := by
    intro n hn'
    have hm : Node.cust n ∈ G.nodes := by rw [hn]; simp [hn']
    rw [hs _ hm (by simp), List.length_erase_of_mem (by rw [hnodup.mem_erase_iff]; exact ⟨by simp, hm⟩), hlen]
    simp
  rw [hn]
  simp only [List.map_cons, List.map_map, List.sum_cons, h1, h2, Function.comp_def]
  rw [List.map_congr_left (g := fun _ => names.length) (fun n hn' => h3 n hn')]
  simp
  ring

/-! ## Augerat -/

/-- The demand a node has after the second part of an Augerat file was read: that of the last row with its number, at first 0. -/
def _root_.Vrpy.Spec.demandOf (demands : List (Nat × ℚ)) (n : Nat) : ℚ :=
  ((demands.filter (fun d => d.1 = n)).getLast?.map Prod.snd).getD 0

theorem demandOf_append (ds : List (Nat × ℚ)) (d : Nat × ℚ) (n : Nat) :
    demandOf (ds ++ [d]) n = if d.1 = n then d.2 else demandOf ds n := by
  unfold demandOf
  rw [List.filter_append]
  by_cases h : d.1 = n
  · simp [h]
  · simp [h]

theorem augeratNode_inj {m n : Nat} (h : augeratNode m = augeratNode n) : m = n := by
  unfold augeratNode at h
  split at h <;> split at h <;> simp_all

theorem setDemands_ok (ds : List (Nat × ℚ)) (P : Plane) (hmem : ∀ d ∈ ds, augeratNode d.1 ∈ P.nodes)
    (hzero : ∀ v ∈ P.nodes, P.nd v = { demand := some 0 }) (hsink : ∀ n, augeratNode n ≠ .sink) :
    ∃ Q, ds.foldlM setDemand P = .ok Q ∧ Q.nodes = P.nodes ∧ Q.pos = P.pos ∧
      (∀ n, augeratNode n ∈ P.nodes → Q.nd (augeratNode n) = { demand := some (demandOf ds n) }) ∧ Q.nd .sink = P.nd .sink := by
  induction ds using List.reverseRecOn with
  | nil => exact ⟨P, rfl, rfl, rfl, fun n hn => hzero _ hn, rfl⟩
  | append_singleton ds d ih =>
    obtain ⟨Q, h1, h2, h3, h4, h5⟩ := ih (fun x hx => hmem x (List.mem_append_left _ hx))
    have hd : augeratNode d.1 ∈ Q.nodes := by rw [h2]; exact hmem d (by simp)
    refine ⟨{ Q with nd := fun x => if x = augeratNode d.1 then { Q.nd x with demand := some d.2 } else Q.nd x }, ?_, h2, h3, ?_, ?_⟩
    · rw [List.foldlM_append, h1]
      simp [setDemand, hd, bind, Except.bind, pure, Except.pure]
    · intro n hn
      rw [demandOf_append]
      by_cases he : d.1 = n
      · subst he
        simp [h4 _ hn]
      · have : augeratNode n ≠ augeratNode d.1 := fun h => he (augeratNode_inj h).symm
        simp only [if_neg this, if_neg he]
        exact h4 n hn
    · simp only [if_neg (Ne.symm (hsink d.1))]
      exact h5

theorem setDemands_error (ds : List (Nat × ℚ)) (P : Plane) (h : ∃ d ∈ ds, augeratNode d.1 ∉ P.nodes) :
    ds.foldlM setDemand P = .error .keyError := by
  induction ds generalizing P with
  | nil => simp at h
  | cons d ds ih =>
    rw [List.foldlM_cons]
    by_cases hd : augeratNode d.1 ∈ P.nodes
    · simp only [setDemand, if_pos hd, bind, Except.bind]
      apply ih
      obtain ⟨x, hx, hn⟩ := h
      rcases List.mem_cons.1 hx with rfl | hx
      · exact absurd hd hn
      · exact ⟨x, hx, hn⟩
    · simp [setDemand, hd, bind, Except.bind]

/-- The place of a node in the plane and the number it has in the file. -/
def _root_.Vrpy.Spec.PositionOf (r0 : Position) (rest : List Position) (v : Node) (r : Position) : Prop :=
  ((v = .source ∨ v = .sink) ∧ r = r0) ∨ (v = .cust (r.name - 1) ∧ r ∈ rest)

/-- Everything about the graph of an Augerat file: the customer with the number `n + 1` in the file is the node `n`. -/
structure _root_.Vrpy.Spec.IsAugeratGraph (r0 : Position) (rest : List Position) (demands : List (Nat × ℚ)) (G : DiGraph) : Prop where
  wf : G.WF
  nodes : G.nodes = .source :: .sink :: rest.map (fun r => .cust (r.name - 1))
  arcs : ∀ u v, v ∈ G.succ u ↔ u ∈ G.nodes ∧ v ∈ G.nodes ∧ u ≠ .sink ∧ v ≠ .source ∧ u ≠ v
  demand : ∀ r ∈ rest, G.nd (.cust (r.name - 1)) = { demand := some (demandOf demands r.name) }
  source : G.nd .source = { demand := some (demandOf demands 1) }
  sink : G.nd .sink = { demand := some 0 }
  lengths : ∀ u v ru rv, v ∈ G.succ u → PositionOf r0 rest u ru → PositionOf r0 rest v rv →
    ∃ d : Nat, Rounded d (ru.x, ru.y) (rv.x, rv.y) ∧ G.ed u v = { cost := some (.scalar d) }

/-- New names are different names, when no customer has the number 1. -/
theorem find_lowered {nodes : List Node} (h1 : Node.cust 1 ∉ nodes) {u : Node} (hu : u ∈ nodes) : oldName nodes (lowered u) = some u := by
  unfold oldName
  cases hf : nodes.find? (fun x => decide (lowered x = lowered u)) with
  | none =>
    have := List.find?_eq_none.1 hf u hu
    simp at this
  | some x =>
    have hx := List.mem_of_find?_eq_some hf
    have he : lowered x = lowered u := by simpa using List.find?_some hf
    congr 1
    cases x with
    | source => cases u <;> simp_all [lowered]
    | sink => cases u <;> simp_all [lowered]
    | cust m =>
      cases u with
      | source => simp [lowered] at he
      | sink => simp [lowered] at he
      | cust n =>
        simp only [lowered, Node.cust.injEq] at he
        have hm : m ≠ 1 := by rintro rfl; exact h1 hx
        have hn : n ≠ 1 := by rintro rfl; exact h1 hu
        congr 1
        omega

theorem find_lowered_mem {nodes : List Node} {v u : Node} (h : oldName nodes v = some u) : u ∈ nodes ∧ lowered u = v := by
  unfold oldName at h
  exact ⟨List.mem_of_find?_eq_some h, by simpa using List.find?_some h⟩

/-- **C82, the network of an Augerat file.**  If the first row of coordinates is the depot, no number occurs twice there and demands are given for nodes with coordinates, then
the graph has the nodes Source, Sink and the customers, renumbered, in the order of the file, with their demands; there is an arc between any two nodes except into Source and out
of Sink, and its cost is the rounded distance.  A demand for a node without coordinates is a `KeyError`. -/
theorem C82_augerat_graph {r0 : Position} {rest : List Position} (demands : List (Nat × ℚ)) (h0 : r0.name = 1)
    (hnd : ((r0 :: rest).map Position.name).Nodup) :
    ((∀ d ∈ demands, d.1 ∈ (r0 :: rest).map Position.name) →
      ∃ G, augerat (r0 :: rest) demands = .ok G ∧ IsAugeratGraph r0 rest demands G) ∧
    ((∃ d ∈ demands, d.1 ∉ (r0 :: rest).map Position.name) → augerat (r0 :: rest) demands = .error .keyError) := by
  obtain ⟨p1, p2, p3⟩ := augeratNodes_spec h0 hnd
  have hmap := hnd
  rw [List.map_cons, List.nodup_cons] at hnd
  obtain ⟨hn0, hnd⟩ := hnd
  have hne : ∀ r ∈ rest, r.name ≠ 1 := by
    intro r hr he
    exact hn0 (List.mem_map.2 ⟨r, hr, he.trans h0.symm⟩)
  have hsink : ∀ n, augeratNode n ≠ .sink := by
    intro n
    unfold augeratNode
    split <;> simp
  have hin : ∀ n, augeratNode n ∈ ((r0 :: rest).foldl addPosition {}).nodes ↔ n ∈ (r0 :: rest).map Position.name := by
    intro n
    rw [p1]
    unfold augeratNode
    by_cases h1 : n = 1
    · simp [h1, h0]
    · simp [h0, h1]
  generalize hP : (r0 :: rest).foldl addPosition {} = P at p1 p2 p3 hin
  refine ⟨?_, ?_⟩
  · intro hdem
    obtain ⟨Q, q1, q2, q3, q4, q5⟩ := setDemands_ok demands P (fun d hd => (hin d.1).2 (hdem d hd)) (by
      intro v hv
      rw [p1] at hv
      rcases List.mem_cons.1 hv with rfl | hv
      · exact (p3 _ (Or.inl rfl)).2
      rcases List.mem_cons.1 hv with rfl | hv
      · exact (p3 _ (Or.inr rfl)).2
      obtain ⟨r, hr, rfl⟩ := List.mem_map.1 hv
      exact (p2 r hr).2) hsink
    have hQ : Q.nodes = .source :: .sink :: rest.map (fun r => .cust r.name) := q2.trans p1
    have hnodup : Q.nodes.Nodup := by
      rw [hQ]
      refine List.nodup_cons.2 ⟨by simp, List.nodup_cons.2 ⟨by simp, ?_⟩⟩
      rw [show (fun r : Position => Node.cust r.name) = Node.cust ∘ Position.name from rfl, ← List.map_map]
      exact hnd.map (fun a b h => Node.cust.inj h)
    have hone : Node.cust 1 ∉ Q.nodes := by
      rw [hQ]
      simp only [List.mem_cons, reduceCtorEq, List.mem_map, Node.cust.injEq, false_or, not_exists, not_and]
      exact hne
    obtain ⟨g1, g2, g3, g4, g5⟩ := complete_spec Q (fun u v => { cost := some (.scalar (distance (Q.pos u) (Q.pos v))) }) hnodup
    generalize hC : Q.complete (fun u v => { cost := some (.scalar (distance (Q.pos u) (Q.pos v))) }) = C at g1 g2 g3 g4 g5
    have hold : ∀ u ∈ Q.nodes, oldName Q.nodes (lowered u) = some u := fun u hu => find_lowered hone hu
    have hinj : ∀ u ∈ Q.nodes, ∀ v ∈ Q.nodes, lowered u = lowered v → u = v := by
      intro u hu v hv he
      have := hold u hu
      rw [he, hold v hv] at this
      exact (Option.some.inj this).symm
    refine ⟨relabel C lowered (oldName Q.nodes), ?_, ?_⟩
    · unfold augerat
      rw [hP, q1]
      simp only [hC]
    · have hnodes : (relabel C lowered (oldName Q.nodes)).nodes = .source :: .sink :: rest.map (fun r => .cust (r.name - 1)) := by
        show C.nodes.map lowered = _
        rw [g1, hQ]
        simp [lowered, Function.comp_def]
      have hmem : ∀ v, v ∈ (relabel C lowered (oldName Q.nodes)).nodes ↔ ∃ u ∈ Q.nodes, lowered u = v := by
        intro v
        show v ∈ C.nodes.map lowered ↔ _
        rw [g1, List.mem_map]
      have hdep : ∀ u, (lowered u = .sink ↔ u = .sink) ∧ (lowered u = .source ↔ u = .source) := by
        intro u
        cases u <;> simp [lowered]
      have hsucc : ∀ u ∈ Q.nodes, (relabel C lowered (oldName Q.nodes)).succ (lowered u) = (C.succ u).map lowered := by
        intro u hu
        simp [relabel, hold u hu]
      have hnone : ∀ v, (∀ u ∈ Q.nodes, lowered u ≠ v) → (relabel C lowered (oldName Q.nodes)).succ v = [] := by
        intro v hv
        have : oldName Q.nodes v = none := by
          cases ho : oldName Q.nodes v with
          | none => rfl
          | some u => exact absurd (find_lowered_mem ho).2 (hv u (find_lowered_mem ho).1)
        simp [relabel, this]
      have harcs : ∀ u v, v ∈ (relabel C lowered (oldName Q.nodes)).succ u ↔
          u ∈ (relabel C lowered (oldName Q.nodes)).nodes ∧ v ∈ (relabel C lowered (oldName Q.nodes)).nodes ∧
            u ≠ .sink ∧ v ≠ .source ∧ u ≠ v := by
        intro u v
        rw [hmem, hmem]
        constructor
        · intro hv
          by_cases hu : ∃ x ∈ Q.nodes, lowered x = u
          · obtain ⟨x, hx, rfl⟩ := hu
            rw [hsucc x hx, List.mem_map] at hv
            obtain ⟨y, hy, rfl⟩ := hv
            obtain ⟨_, hyQ, a, b, c⟩ := (g4 x y).1 hy
            exact ⟨⟨x, hx, rfl⟩, ⟨y, hyQ, rfl⟩, fun h => a ((hdep x).1.1 h), fun h => b ((hdep y).2.1 h),
              fun h => c (hinj x hx y hyQ h)⟩
          · push Not at hu
            rw [hnone u hu] at hv
            cases hv
        · rintro ⟨⟨x, hx, rfl⟩, ⟨y, hy, rfl⟩, a, b, c⟩
          rw [hsucc x hx, List.mem_map]
          exact ⟨y, (g4 x y).2 ⟨hx, hy, fun h => a ((hdep x).1.2 h), fun h => b ((hdep y).2.2 h), fun h => c (by rw [h])⟩, rfl⟩
      have hpos : ∀ v r, PositionOf r0 rest v r → ∃ u ∈ Q.nodes, lowered u = v ∧ Q.pos u = (r.x, r.y) := by
        rintro v r (⟨hv | hv, rfl⟩ | ⟨rfl, hr⟩)
        · subst hv
          exact ⟨.source, by rw [hQ]; simp, rfl, by rw [q3]; exact (p3 _ (Or.inl rfl)).1⟩
        · subst hv
          exact ⟨.sink, by rw [hQ]; simp, rfl, by rw [q3]; exact (p3 _ (Or.inr rfl)).1⟩
        · refine ⟨.cust r.name, ?_, rfl, by rw [q3]; exact (p2 r hr).1⟩
          rw [hQ]
          exact List.mem_cons_of_mem _ (List.mem_cons_of_mem _ (List.mem_map.2 ⟨r, hr, rfl⟩))
      refine ⟨⟨?_, ?_, fun u v h => ⟨((harcs u v).1 h).1, ((harcs u v).1 h).2.1⟩⟩, hnodes, harcs, ?_, ?_, ?_, ?_⟩
      · show (C.nodes.map lowered).Nodup
        rw [g1]
        exact hnodup.map_on hinj
      · intro u
        by_cases hu : ∃ x ∈ Q.nodes, lowered x = u
        · obtain ⟨x, hx, rfl⟩ := hu
          rw [hsucc x hx]
          refine (g3.succ_nodup x).map_on ?_
          intro a ha b hb
          exact hinj a ((g4 x a).1 ha).2.1 b ((g4 x b).1 hb).2.1
        · push Not at hu
          rw [hnone u hu]
          exact List.nodup_nil
      · intro r hr
        have hmem' : Node.cust r.name ∈ Q.nodes := by
          rw [hQ]
          exact List.mem_cons_of_mem _ (List.mem_cons_of_mem _ (List.mem_map.2 ⟨r, hr, rfl⟩))
        have ha : augeratNode r.name = .cust r.name := by simp [augeratNode, hne r hr]
        show ((oldName Q.nodes (lowered (.cust r.name))).map C.nd).getD {} = _
        rw [hold _ hmem', g2]
        have := q4 r.name (by rw [ha, ← q2]; exact hmem')
        rw [ha] at this
        simpa using this
      · have hmem' : Node.source ∈ Q.nodes := by rw [hQ]; simp
        show ((oldName Q.nodes (lowered .source)).map C.nd).getD {} = _
        rw [hold _ hmem', g2]
        have := q4 1 (by rw [← q2]; exact hmem')
        simpa [augeratNode] using this
      · have hmem' : Node.sink ∈ Q.nodes := by rw [hQ]; simp
        show ((oldName Q.nodes (lowered .sink)).map C.nd).getD {} = _
        rw [hold _ hmem', g2]
        simpa [q5] using (p3 _ (Or.inr rfl)).2
      · intro u v ru rv huv hu hv
        obtain ⟨x, hx, rfl, hpx⟩ := hpos u ru hu
        obtain ⟨y, hy, rfl, hpy⟩ := hpos v rv hv
        refine ⟨distance (ru.x, ru.y) (rv.x, rv.y), distance_near _ _, ?_⟩
        show ((oldName Q.nodes (lowered x)).bind (fun a => (oldName Q.nodes (lowered y)).map (fun b => C.ed a b))).getD {} = _
        rw [hold x hx, hold y hy]
        have hxy : y ∈ C.succ x := by
          rw [hsucc x hx, List.mem_map] at huv
          obtain ⟨z, hz, he⟩ := huv
          rw [← hinj z ((g4 x z).1 hz).2.1 y hy he]
          exact hz
        simp only [Option.map_some, Option.bind_some, Option.getD_some]
        rw [g5 x y hxy, hpx, hpy]
  · rintro ⟨d, hd, hn⟩
    unfold augerat
    rw [hP, setDemands_error demands P ⟨d, hd, fun h => hn ((hin d.1).1 h)⟩]

/-- **C82, the problem of an Augerat file** (`benchmarks/tests/test_cvrp_augerat.py:18`): if demands are not negative and there is a customer, the constructor accepts it,
and everything holds that the theorems about whole runs (C55, C59, C70, …) assume of a problem with capacities. -/
theorem C82_augerat_problem {r0 : Position} {rest : List Position} {demands : List (Nat × ℚ)} {G : DiGraph} (H : IsAugeratGraph r0 rest demands G)
    (hcust : rest ≠ []) (hdem : ∀ d ∈ demands, 0 ≤ d.2) (capacity : Int) :
    Capacitated { G := G, loadCapacity := .one (.int capacity) } ∧
    ∃ o, Obj.create { G := G, loadCapacity := .one (.int capacity) } = .ok o ∧ o.P.G.nodes = G.nodes ∧ o.P.G.nd = G.nd ∧
      ∀ u, o.P.G.succ u = G.succ u := by
  obtain ⟨r1, hr1⟩ := List.exists_mem_of_ne_nil _ hcust
  have hsrc : Node.source ∈ G.nodes := by rw [H.nodes]; simp
  have hsnk : Node.sink ∈ G.nodes := by rw [H.nodes]; simp
  have hpos : ∀ v ∈ G.nodes, ∃ r, PositionOf r0 rest v r := by
    intro v hv
    rw [H.nodes] at hv
    rcases List.mem_cons.1 hv with rfl | hv
    · exact ⟨r0, Or.inl ⟨Or.inl rfl, rfl⟩⟩
    rcases List.mem_cons.1 hv with rfl | hv
    · exact ⟨r0, Or.inl ⟨Or.inr rfl, rfl⟩⟩
    obtain ⟨r, hr, rfl⟩ := List.mem_map.1 hv
    exact ⟨r, Or.inr ⟨rfl, hr⟩⟩
  have hcost : ∀ u v, v ∈ G.succ u → ∃ c, (G.ed u v).cost = some (.scalar c) := by
    intro u v huv
    obtain ⟨ru, hu⟩ := hpos u ((H.arcs u v).1 huv).1
    obtain ⟨rv, hv⟩ := hpos v ((H.arcs u v).1 huv).2.1
    obtain ⟨d, _, hd⟩ := H.lengths u v ru rv huv hu hv
    exact ⟨d, by rw [hd]⟩
  have hnn : ∀ n, 0 ≤ demandOf demands n := by
    intro n
    unfold demandOf
    cases hl : (demands.filter (fun d => d.1 = n)).getLast? with
    | none => simp
    | some d => simpa using hdem d (List.mem_filter.1 (List.mem_of_getLast? hl)).1
  refine ⟨⟨⟨H.wf, ⟨r1.name - 1, ?_⟩, ?_, ?_, ?_, rfl, rfl, rfl, ?_⟩, rfl⟩, ?_⟩
  · show Node.cust (r1.name - 1) ∈ G.nodes
    rw [H.nodes]
    exact List.mem_cons_of_mem _ (List.mem_cons_of_mem _ (List.mem_map.2 ⟨r1, hr1, rfl⟩))
  · intro _ u v huv
    obtain ⟨c, hc⟩ := hcost u v huv
    exact ⟨c, Or.inl hc⟩
  · intro v hv
    show 0 ≤ ((G.nd v).demand).getD 0
    have hv : v ∈ G.nodes := hv
    rw [H.nodes] at hv
    rcases List.mem_cons.1 hv with rfl | hv
    · rw [H.source]
      exact hnn _
    rcases List.mem_cons.1 hv with rfl | hv
    · rw [H.sink]
      exact le_refl _
    obtain ⟨r, hr, rfl⟩ := List.mem_map.1 hv
    rw [H.demand r hr]
    exact hnn _
  · show ((G.nd .source).serviceTime).getD 0 = 0 ∧ ((G.nd .sink).serviceTime).getD 0 = 0
    rw [H.source, H.sink]
    exact ⟨rfl, rfl⟩
  · intro _
    simp only [userCapacities]
    split <;> simp
  · obtain ⟨G', hG', g1, g2, g3, _⟩ := complete_accepted H.wf hsrc hsnk H.arcs
      (fun u v h => by obtain ⟨c, hc⟩ := hcost u v h; rw [hc]; simp)
    refine ⟨{ P := { G := G', loadCapacity := .one (.int capacity) } }, ?_, g1, g2, g3⟩
    unfold Obj.create
    simp only [hG']

/-- **C82, an Augerat file solved.**  `solve()` without preassigned routes and without diving, with initial routes (without repeated nodes) or without, with cspy or by LP: however
the solvers behave within their contracts, if it returns, the routes visit every customer of the file once, with vehicles that can carry the demands of the file, and `best_value` is
the sum of the rounded distances driven. -/
theorem C82_augerat_solve {r0 : Position} {rest : List Position} {demands : List (Nat × ℚ)} {G : DiGraph} (H : IsAugeratGraph r0 rest demands G)
    (hcust : rest ≠ []) (hdem : ∀ d ∈ demands, 0 ≤ d.2) {capacity : Int} {w : World} {a : SolveArgs} {fuel : Nat} {o o' : Obj}
    (hw : (WorldOk w ∧ a.cspy = true) ∨ (LpWorldOk PositiveCycles w ∧ a.cspy = false))
    (hpre : a.preassignments = []) (hdive : a.dive = false) (hheur : a.heuristicOnly = false) (hinit : ∀ r ∈ a.initialRoutes, r.Nodup)
    (hc : Obj.create { G := G, loadCapacity := .one (.int capacity) } = .ok o) (h : o.solve w a fuel = .ok (some o')) :
    (∀ r ∈ rest, (o'.solution.routes.map (fun p => p.2.count (.cust (r.name - 1)))).sum = 1) ∧
    (∀ i r, (i, r) ∈ o'.solution.routes → ∃ mid, r = routeOf mid ∧ (∀ v ∈ mid, ∃ s ∈ rest, v = .cust (s.name - 1)) ∧
      (capacity ≠ 0 → (mid.map (userDemand G)).sum ≤ capacity)) ∧
    ∃ N, ∃ len : Node → Node → Nat, o'.P.H = some N ∧
      (∀ u v ru rv, v ∈ G.succ u → PositionOf r0 rest u ru → PositionOf r0 rest v rv → Rounded (len u v) (ru.x, ru.y) (rv.x, rv.y)) ∧
      bestValue N false 0 o'.solution = .ok ((o'.solution.routes.map (fun p => legSum (fun u v => (len u v : ℚ)) p.2)).sum) := by
  have hP := (C82_augerat_problem H hcust hdem capacity).1
  have hsrc : Node.source ∈ G.nodes := by rw [H.nodes]; simp
  have hsnk : Node.sink ∈ G.nodes := by rw [H.nodes]; simp
  have hlen : ∃ len : Node → Node → Nat, ∀ u v, v ∈ G.succ u → (G.ed u v) = { cost := some (.scalar (len u v)) } ∧
      ∀ ru rv, PositionOf r0 rest u ru → PositionOf r0 rest v rv → Rounded (len u v) (ru.x, ru.y) (rv.x, rv.y) := by
    have : ∀ u v, ∃ d : Nat, v ∈ G.succ u → (G.ed u v) = { cost := some (.scalar d) } ∧
        ∀ ru rv, PositionOf r0 rest u ru → PositionOf r0 rest v rv → Rounded d (ru.x, ru.y) (rv.x, rv.y) := by
      intro u v
      by_cases huv : v ∈ G.succ u
      · have hpos : ∀ x ∈ G.nodes, ∃ r, PositionOf r0 rest x r := by
          intro x hx
          rw [H.nodes] at hx
          rcases List.mem_cons.1 hx with rfl | hx
          · exact ⟨r0, Or.inl ⟨Or.inl rfl, rfl⟩⟩
          rcases List.mem_cons.1 hx with rfl | hx
          · exact ⟨r0, Or.inl ⟨Or.inr rfl, rfl⟩⟩
          obtain ⟨r, hr, rfl⟩ := List.mem_map.1 hx
          exact ⟨r, Or.inr ⟨rfl, hr⟩⟩
        obtain ⟨ru, hu⟩ := hpos u ((H.arcs u v).1 huv).1
        obtain ⟨rv, hv⟩ := hpos v ((H.arcs u v).1 huv).2.1
        obtain ⟨d, _, he⟩ := H.lengths u v ru rv huv hu hv
        refine ⟨d, fun _ => ⟨he, ?_⟩⟩
        intro ru' rv' hu' hv'
        obtain ⟨d', hd', he'⟩ := H.lengths u v ru' rv' huv hu' hv'
        have : d = d' := by
          rw [he] at he'
          simpa using he'
        rw [this]
        exact hd'
      · exact ⟨0, fun h => absurd h huv⟩
    choose len hl using this
    exact ⟨len, hl⟩
  obtain ⟨len, hl⟩ := hlen
  have harc : ∀ u v, UserArc G u v → u ∈ G.nodes → v ∈ G.nodes → v ∈ G.succ u := by
    rintro u v (h | ⟨rfl, n, rfl⟩ | ⟨rfl, n, rfl⟩ | ⟨rfl, rfl⟩) hu hv
    · exact h
    · exact (H.arcs _ _).2 ⟨hu, hv, by simp, by simp, by simp⟩
    · exact (H.arcs _ _).2 ⟨hu, hv, by simp, by simp, by simp⟩
    · exact (H.arcs _ _).2 ⟨hu, hv, by simp, by simp, by simp⟩
  have hcost : ∀ u v, v ∈ G.succ u → userArcCost { G := G, loadCapacity := .one (.int capacity) } 0 u v = len u v := by
    intro u v huv
    unfold userArcCost
    simp only [if_pos huv, userCost, (hl u v huv).1, userFixedCost]
    simp
  have hplan : ∃ K N, K = 1 ∧ o'.P.H = some N ∧ SolvesProblem { G := G, loadCapacity := .one (.int capacity) } K o'.solution ∧
      bestValue N false 0 o'.solution = .ok ((userCosts { G := G, loadCapacity := .one (.int capacity) } o'.solution).sum +
        0 * o'.solution.dropped.length) := by
    have hinit' : ∀ r ∈ a.initialRoutes, r.Nodup ∧ WithinStops (Vrp.numStops { G := G, loadCapacity := .one (.int capacity) }).stops (stops r).length :=
      fun r hr => ⟨hinit r hr, fun n hn => (by cases hn)⟩
    rcases hw with ⟨hw, hcspy⟩ | ⟨hw, hcspy⟩
    · obtain ⟨K, N, hK, hN, hS, hv, _⟩ := C55_plan_partial hw hP hpre hdive hheur hcspy hinit' hc h
      exact ⟨K, N, hK rfl, hN, hS, hv rfl⟩
    · have hD : NonnegativeData { G := G, loadCapacity := .one (.int capacity) } := by
        refine ⟨?_, ?_, ?_⟩
        · intro v hv
          show 0 ≤ ((G.nd v).serviceTime).getD 0
          have hv : v ∈ G.nodes := hv
          rw [H.nodes] at hv
          rcases List.mem_cons.1 hv with rfl | hv
          · rw [H.source]; exact le_refl _
          rcases List.mem_cons.1 hv with rfl | hv
          · rw [H.sink]; exact le_refl _
          obtain ⟨r, hr, rfl⟩ := List.mem_map.1 hv
          rw [H.demand r hr]
          exact le_refl _
        · intro u v huv
          show 0 ≤ ((G.ed u v).time).getD 0
          rw [(hl u v huv).1]
          exact le_refl _
        · intro k u v _
          unfold userArcCost
          by_cases huv : v ∈ G.succ u
          · simp only [if_pos huv, userCost, (hl u v huv).1, userFixedCost]
            simp
          · simp only [if_neg huv]
            simp only [userFixedCost]
            split_ifs <;> simp
      obtain ⟨K, N, hK, hN, hS, hv, _⟩ := C55_lp_partial hw hP hD (.plain rfl rfl) hpre hdive hheur hcspy hinit' hc h
      exact ⟨K, N, hK rfl, hN, hS, hv rfl⟩
  obtain ⟨K, N, hK, hN, hS, hv⟩ := hplan
  have hdrop : o'.solution.dropped = [] := hS.penalty rfl
  refine ⟨?_, ?_, N, len, hN, fun u v ru rv huv hu hv => (hl u v huv).2 ru rv hu hv, ?_⟩
  · intro r hr
    refine hS.once (r.name - 1) ?_ (by rw [hdrop]; simp)
    show _ ∈ G.nodes
    rw [H.nodes]
    exact List.mem_cons_of_mem _ (List.mem_cons_of_mem _ (List.mem_map.2 ⟨r, hr, rfl⟩))
  · intro i r hir
    obtain ⟨mid, rfl, _, hmid, _, _, k, hk, _, hload⟩ := hS.routes i r hir
    refine ⟨mid, rfl, ?_, ?_⟩
    · intro v hv
      obtain ⟨⟨n, rfl⟩, hn⟩ := hmid v hv
      have hn : Node.cust n ∈ G.nodes := hn
      rw [H.nodes] at hn
      simp only [List.mem_cons, reduceCtorEq, List.mem_map, Node.cust.injEq, false_or] at hn
      obtain ⟨s, hs, rfl⟩ := hn
      exact ⟨s, hs, rfl⟩
    · intro hcap
      have hk0 : k = 0 := by omega
      rw [hk0] at hload
      obtain ⟨c, hc, hle⟩ := hload (by simp [userCapacities, hcap])
      obtain rfl : (capacity : ℚ) = c := by simpa [userCapacities, hcap] using hc
      exact hle
  · rw [hv, zero_mul, add_zero]
    congr 2
    unfold userCosts
    apply List.map_congr_left
    rintro ⟨i, r⟩ hir
    obtain ⟨mid, rfl, _, hmid, ha, _, k, hk, hty, _⟩ := hS.routes i r hir
    have hk0 : k = 0 := by omega
    simp only [hty, Option.getD_some, hk0]
    apply legSum_congr
    intro u v huv
    refine hcost u v (harc u v ((along_iff _ _).1 ha u v huv) ?_ ?_)
    all_goals
      obtain ⟨pre, post, hpp⟩ := mem_consecutive_iff.1 huv
      have hmem : ∀ x ∈ routeOf mid, x ∈ G.nodes := by
        intro x hx
        simp only [routeOf, List.mem_cons, List.mem_append, List.not_mem_nil, or_false] at hx
        rcases hx with rfl | hx | rfl
        · exact hsrc
        · exact (hmid x hx).2
        · exact hsnk
      exact hmem _ (by rw [hpp]; simp)

/-! ## Cases -/

/-- The beginning of the file C101 (`benchmarks/data/cvrptw/C101.txt`). -/
def c101 : List Row :=
  [⟨0, 40, 50, 0, 0, 1236, 0⟩, ⟨1, 45, 68, 10, 912, 967, 90⟩, ⟨2, 45, 70, 30, 825, 870, 90⟩, ⟨3, 42, 66, 10, 65, 146, 90⟩]

/-- It is a file as it should be, and every customer needs service; from the depot to customer 1 it is 19 (the root of 349 is 18.68…). -/
example : SolomonFile ⟨0, 40, 50, 0, 0, 1236, 0⟩ c101.tail ∧ (∀ r ∈ c101.tail, 1 ≤ r.service) ∧
    ((solomon c101).ed .source (.cust 1)).time = some 19 := by
  refine ⟨⟨rfl, by decide, by decide, rfl, by decide⟩, by decide, by decide +kernel⟩

/-- Two customers on a line with the depot, at distance 1.41… from each other; the second one closes at 2. -/
def closeBy : List Row := [⟨0, 0, 0, 0, 0, 100, 0⟩, ⟨1, 1, 1, 1, 0, 100, 0⟩, ⟨2, 2, 2, 1, 0, 2, 0⟩]

/-- **C82, counterexample** without service times: rounded distances violate the triangle inequality (1 + 1 < 3).  In the network loaded from the file, one vehicle can visit
both customers on time; but tightening the windows makes customer 2 open after it closes, and `solve()` fails with an exception. -/
theorem C82_no_service_counterexample :
    SolomonFile ⟨0, 0, 0, 0, 0, 100, 0⟩ closeBy.tail ∧
    Along (UserArc (solomon closeBy)) (routeOf [.cust 1, .cust 2]) ∧ UserOnTime (solomon closeBy) (routeOf [.cust 1, .cust 2]) ∧
    userTime (solomon closeBy) .source (.cust 1) + userTime (solomon closeBy) (.cust 1) (.cust 2) <
      userTime (solomon closeBy) .source (.cust 2) ∧
    planOf exWorld3 {} 5 (solomonProblem closeBy 10) = .error .keyError := by
  refine ⟨⟨rfl, by decide, by decide, rfl, by decide⟩, ?_, ?_, by decide +kernel, eq_error_of_raised (by decide +kernel)⟩
  · refine ⟨Or.inl ?_, Or.inl ?_, Or.inl ?_, trivial⟩ <;> decide +kernel
  · show ∀ p ∈ _, _
    decide +kernel

/-- The beginning of an Augerat file (`benchmarks/data/cvrp/P-n16-k8.vrp`): the customers 2 and 3 become the nodes 1 and 2. -/
example : (augerat [⟨1, 30, 40⟩, ⟨2, 37, 52⟩, ⟨3, 49, 49⟩] [(1, 0), (2, 19), (3, 30)]).toOption.map
    (fun G => (G.nodes, (G.nd (.cust 2)).demand, (G.ed .source (.cust 1)).cost)) =
      some ([.source, .sink, .cust 1, .cust 2], some 30, some (.scalar 14)) := by
  decide +kernel

end Benchmarks

end Vrpy
