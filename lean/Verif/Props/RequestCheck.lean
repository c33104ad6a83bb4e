import Verif.Props.Prune
import Verif.Proofs.Windows
import Verif.Model.Columns

/-!
# C64: the check of the trips for requests

`_get_initial_solution` tests the trips for single requests against the arcs left after pruning.  (The counterexample
for deliveries with a service time is `C64_service_counterexample` in `Props/EndToEndRequests.lean`.)
-/

namespace Vrpy

open Spec

/-- The trips accepted are on time. -/
theorem pair_onTime_net {G : Net} (hser : G.service .source = 0) {v w : Node} (hv : v ∈ G.customers) (hwc : w ∈ G.customers)
    (hlv : G.lower v ≤ G.upper v) (hlw : G.lower w ≤ G.upper w) (hls : G.lower .sink ≤ G.upper .sink) (hsw : G.service w = 0)
    (h1 : ¬ TwBad G (.source, v)) (h2 : ¬ TwBad (strengthened G) (v, w)) (h3 : ¬ TwBad (strengthened G) (w, .sink)) :
    OnTime G (routeOf [v, w]) := by
  have hsnk : Node.sink ∉ G.customers := fun h => (mem_customers.1 h).2.2 rfl
  have hb2 : max (G.lower v) (G.lower .source + G.time .source v) + G.time v w + G.service v ≤
      min (G.upper w) (G.upper .sink - G.time w .sink) := by
    simpa only [TwBad, gt_iff_lt, not_lt, strengthened, hv, hwc, if_true] using h2
  have hb3 : max (G.lower w) (G.lower .source + G.time .source w) + G.time w .sink + G.service w ≤ G.upper .sink := by
    simpa only [TwBad, gt_iff_lt, not_lt, strengthened, hwc, hsnk, if_true, if_false] using h3
  simp only [TwBad, gt_iff_lt, not_lt] at h1
  rw [hsw] at hb3
  have hb2a := hb2.trans (min_le_left _ _)
  have hb2b := hb2.trans (min_le_right _ _)
  have hb3' := le_max_left (G.lower w) (G.lower .source + G.time .source w)
  rw [max_comm (G.lower v)] at hb2a hb2b
  intro p hp
  simp only [List.cons_append, List.nil_append, arrivalsFrom, List.zip_cons_cons, List.zip_nil_right, List.mem_cons,
    List.not_mem_nil, or_false, hser, hsw, add_zero] at hp
  rcases hp with rfl | rfl | rfl
  · exact max_le (by linarith) hlv
  · exact max_le (by linarith) hlw
  · refine max_le ?_ hls
    rw [← le_sub_iff_add_le]
    exact max_le (by linarith) (by linarith)

private theorem check_cases (G : Net) (v w : Node) :
    (checkPickupDeliveryTimeWindows G [(.source, v), (v, w), (w, .sink)] = .ok () ∧ v ∈ G.succ .source ∧ w ∈ G.succ v ∧
      Node.sink ∈ G.succ w) ∨
    (checkPickupDeliveryTimeWindows G [(.source, v), (v, w), (w, .sink)] = .error .valueError ∧
      ¬ (v ∈ G.succ .source ∧ w ∈ G.succ v ∧ Node.sink ∈ G.succ w)) := by
  unfold checkPickupDeliveryTimeWindows
  simp only [List.forM_eq_forM, List.forM_cons, List.forM_nil, Net.hasEdge]
  by_cases h1 : v ∈ G.succ .source <;> by_cases h2 : w ∈ G.succ v <;> by_cases h3 : Node.sink ∈ G.succ w <;>
    simp [h1, h2, h3, throw, throwThe, MonadExceptOf.throw, pure, Except.pure, bind, Except.bind]

/-- The trips are those of the requests, if all their arcs are there; otherwise a `ValueError` is raised. -/
private theorem requestRoutes_cases (G : Net) : ∀ (l : List Node) (acc : List (List Node)),
    let step := fun (acc : List (List Node)) v =>
      match G.request v with
      | none => Except.ok acc
      | some w =>
        match (if true then checkPickupDeliveryTimeWindows G [(.source, v), (v, w), (w, .sink)] else .ok ()) with
        | .error e => .error e
        | .ok _ => .ok (acc ++ [[Node.source, v, w, .sink]])
    ((∀ v ∈ l, ∀ w, G.request v = some w → v ∈ G.succ .source ∧ w ∈ G.succ v ∧ Node.sink ∈ G.succ w) ∧
      l.foldlM step acc = .ok (acc ++ l.filterMap (fun v => (G.request v).map (fun w => routeOf [v, w])))) ∨
    ((¬ ∀ v ∈ l, ∀ w, G.request v = some w → v ∈ G.succ .source ∧ w ∈ G.succ v ∧ Node.sink ∈ G.succ w) ∧
      l.foldlM step acc = .error .valueError) := by
  intro l
  induction l with
  | nil => intro acc; left; exact ⟨by simp, by simp [pure, Except.pure]⟩
  | cons v l ih =>
    intro acc
    simp only [List.foldlM_cons, if_true]
    cases hr : G.request v with
    | none =>
      simp only [bind, Except.bind]
      rcases ih acc with ⟨h1, h2⟩ | ⟨h1, h2⟩
      · left
        refine ⟨?_, ?_⟩
        · intro x hx w hw
          rcases List.mem_cons.1 hx with rfl | hx
          · rw [hr] at hw; cases hw
          · exact h1 x hx w hw
        · simpa [hr] using h2
      · exact Or.inr ⟨fun h => h1 (fun x hx => h x (by simp [hx])), by simpa using h2⟩
    | some w =>
      rcases check_cases G v w with ⟨c1, c2⟩ | ⟨c1, c2⟩
      · simp only [c1, bind, Except.bind]
        rcases ih (acc ++ [[.source, v, w, .sink]]) with ⟨h1, h2⟩ | ⟨h1, h2⟩
        · left
          refine ⟨?_, ?_⟩
          · intro x hx w' hw
            rcases List.mem_cons.1 hx with rfl | hx
            · rw [hr] at hw; cases hw; exact c2
            · exact h1 x hx w' hw
          · simpa [hr, routeOf] using h2
        · exact Or.inr ⟨fun h => h1 (fun x hx => h x (by simp [hx])), by simpa using h2⟩
      · right
        exact ⟨fun h => c2 (h v (by simp) w hr), by simp [c1, bind, Except.bind]⟩

/-- **C64 (partial).** Full claim: with time windows `_get_initial_solution` accepts the requests of a problem (each is given its
own trip) if and only if each of these trips is on time, and raises `ValueError` otherwise.  That is false if deliveries need
service time (`C64_service_counterexample`) or there is a detour that is quicker than the direct way to or from the depot
(`C64_triangle_counterexample`).  Proved for all other networks whose nodes start with Source (`C60_order_counterexample`). -/
theorem C64_request_check_partial (G : Net) (hG : WellFormed G) (hD : DepotConnected G) (hT : DepotTriangle G)
    (hfirst : G.nodes.head? = some .source) (hser : G.service .source = 0)
    (hwin : ∀ v ∈ G.nodes, G.lower v ≤ G.upper v)
    (hreq : ∀ v ∈ G.nodes, ∀ w, G.request v = some w → v ∈ G.customers ∧ w ∈ G.customers ∧ w ∈ G.succ v ∧ G.service w = 0) :
    ∃ G', pruneGraph G [] true = .ok G' ∧
      (((∀ v ∈ G.nodes, ∀ w, G.request v = some w → OnTime G (routeOf [v, w])) ∧
        requestRoutes G' true = .ok (G.nodes.filterMap (fun v => (G.request v).map (fun w => routeOf [v, w])))) ∨
      ((∃ v ∈ G.nodes, ∃ w, G.request v = some w ∧ ¬ OnTime G (routeOf [v, w])) ∧
        requestRoutes G' true = .error .valueError)) := by
  obtain ⟨G', hp, hkeep⟩ := C06_tw_pruning_sound_partial G hG hD hT
  refine ⟨G', hp, ?_⟩
  have hp' : removeInfeasibleArcsTimeWindows G = .ok G' := hp
  have hdata : G'.nodes = G.nodes ∧ G'.request = G.request := by
    cases he : G.edges with
    | nil =>
      have : G' = G := by simpa [removeInfeasibleArcsTimeWindows, he, pure, Except.pure, Net.removeEdges] using hp'.symm
      subst this
      exact ⟨rfl, rfl⟩
    | cons e0 es =>
      rw [tw_result hG hD e0 es he] at hp'
      simp only [Except.ok.injEq] at hp'
      subst hp'
      exact ⟨rfl, rfl⟩
  have hiff : ∀ v ∈ G.nodes, ∀ w, G.request v = some w →
      ((v ∈ G'.succ .source ∧ w ∈ G'.succ v ∧ Node.sink ∈ G'.succ w) ↔ OnTime G (routeOf [v, w])) := by
    intro v hv w hw
    obtain ⟨hvc, hwc, harc, hsw⟩ := hreq v hv w hw
    have cust : ∀ x, x ∈ G.customers → ∃ n, x = .cust n ∧ x ∈ G.nodes ∧ x ∈ G.succ .source ∧ Node.sink ∈ G.succ x := by
      intro x hx
      obtain ⟨h1, h2, h3⟩ := mem_customers.1 hx
      cases x with
      | source => exact absurd rfl h2
      | sink => exact absurd rfl h3
      | cust n => exact ⟨n, rfl, h1, hD n h1⟩
    obtain ⟨nv, ev, v1, v2, v3⟩ := cust v hvc
    obtain ⟨nw, ew, w1, w2, w3⟩ := cust w hwc
    constructor
    · rintro ⟨a1, a2, a3⟩
      obtain ⟨-, -, hf⟩ := tw_facts hG hD hfirst ⟨v, v2⟩ hp'
      refine pair_onTime_net hser hvc hwc (hwin v v1) (hwin w w1) (hwin _ hG.sink_mem) hsw ?_ ?_ ?_
      · rcases (hf _ _ a1).2 with h | h
        · exact fun hb => h (twBad_mono hb)
        · exact h.2
      · rcases (hf _ _ a2).2 with h | h
        · exact h
        · rw [ev] at h; exact absurd h.1 (by simp)
      · rcases (hf _ _ a3).2 with h | h
        · exact h
        · rw [ew] at h; exact absurd h.1 (by simp)
    · intro hon
      obtain ⟨⟨mid, hmid, -, ha⟩, -⟩ := hkeep (routeOf [v, w]) ⟨[v, w], rfl, by
        intro x hx
        simp only [List.mem_cons, List.not_mem_nil, or_false] at hx
        rcases hx with rfl | rfl
        · exact ⟨⟨nv, ev⟩, v1⟩
        · exact ⟨⟨nw, ew⟩, w1⟩, ⟨v2, harc, w3, trivial⟩⟩ hon
      exact ⟨ha.1, ha.2.1, ha.2.2.1⟩
  have hrr : requestRoutes G' true = _ := rfl
  unfold requestRoutes at hrr ⊢
  rcases requestRoutes_cases G' G'.nodes [] with ⟨h1, h2⟩ | ⟨h1, h2⟩
  · left
    rw [hdata.1, hdata.2] at h1
    refine ⟨fun v hv w hw => (hiff v hv w hw).1 (h1 v hv w hw), ?_⟩
    rw [List.nil_append] at h2
    rw [← hdata.1, ← hdata.2]
    exact h2
  · right
    rw [hdata.1, hdata.2] at h1
    refine ⟨?_, h2⟩
    push Not at h1
    obtain ⟨v, hv, w, hw, hn⟩ := h1
    exact ⟨v, hv, w, hw, fun hon => hn ((hiff v hv w hw).2 hon).1 ((hiff v hv w hw).2 hon).2.1 ((hiff v hv w hw).2 hon).2.2⟩

/-! ## Concrete cases -/

/-- A request from 1 to 2; every arc takes 10, but that from Source to 2 `direct`; Sink closes at `close`. -/
def exC64 (close : ℚ) (direct : ℚ) : Net where
  nodes := [.source, .cust 1, .cust 2, .sink]
  succ := fun u => match u with
    | .source => [.cust 1, .cust 2, .sink]
    | .cust 1 => [.cust 2, .sink]
    | .cust 2 => [.sink]
    | _ => []
  cost := fun _ _ => [1]
  time := fun u v => if u = .source ∧ v = .cust 2 then direct else 10
  demand := fun _ => 0
  collect := fun _ => 0
  service := fun _ => 0
  lower := fun _ => 0
  upper := fun v => if v = .sink then close else 100
  freq := fun _ => 1
  request := fun v => if v = .cust 1 then some (.cust 2) else none

/-- The trip is on time: accepted.  It is late: `ValueError`. -/
example : (∃ G', pruneGraph (exC64 30 10) [] true = .ok G' ∧ requestRoutes G' true = .ok [routeOf [.cust 1, .cust 2]]) ∧
    (∃ G', pruneGraph (exC64 29 10) [] true = .ok G' ∧ requestRoutes G' true = .error .valueError) := by
  refine ⟨⟨_, rfl, ?_⟩, ⟨_, rfl, ?_⟩⟩ <;> decide +kernel

theorem exC64_wf (close direct : ℚ) : WellFormed (exC64 close direct) := by
  refine ⟨by simp [exC64], ?_, ?_, by simp [exC64], by simp [exC64], ?_, rfl⟩
  · intro u; simp only [exC64]; split <;> decide
  · intro u; simp only [exC64]; split <;> first | decide | simp
  · intro u; simp only [exC64]; split <;> decide

theorem exC64_depot (close direct : ℚ) : DepotConnected (exC64 close direct) := by
  intro n hn
  simp only [exC64, List.mem_cons, List.not_mem_nil, or_false, Node.cust.injEq, reduceCtorEq, false_or] at hn
  rcases hn with rfl | rfl <;> simp [exC64]

/-- The hypotheses of C64 (partial) are met. -/
example : DepotTriangle (exC64 30 10) ∧ (exC64 30 10).nodes.head? = some .source ∧
    (∀ v ∈ (exC64 30 10).nodes, (exC64 30 10).lower v ≤ (exC64 30 10).upper v) ∧
    OnTime (exC64 30 10) (routeOf [.cust 1, .cust 2]) ∧ ¬ OnTime (exC64 29 10) (routeOf [.cust 1, .cust 2]) := by
  refine ⟨⟨fun _ _ => le_refl _, ?_, ?_⟩, rfl, by decide +kernel, ?_, ?_⟩
  · intro u v _ _ _; simp only [exC64]; split <;> split <;> norm_num
  · intro u v _ _ _; simp only [exC64]; split <;> split <;> norm_num
  · show ∀ p ∈ _, _
    decide +kernel
  · intro h
    exact absurd (h (.sink, 30) (by decide +kernel)) (by decide +kernel)

/-- **C64**, counterexample: the direct way from Source to 2 takes 100, so that 2 "cannot be left before 100": the trip over 1
takes only 30 and Sink closes at 60, but the problem is refused. -/
theorem C64_triangle_counterexample : WellFormed (exC64 60 100) ∧ DepotConnected (exC64 60 100) ∧
    OnTime (exC64 60 100) (routeOf [.cust 1, .cust 2]) ∧
    ∃ G', pruneGraph (exC64 60 100) [] true = .ok G' ∧ requestRoutes G' true = .error .valueError := by
  refine ⟨exC64_wf _ _, exC64_depot _ _, ?_, ⟨_, rfl, by decide +kernel⟩⟩
  show ∀ p ∈ _, _
  decide +kernel

end Vrpy
