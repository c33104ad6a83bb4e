import Verif.Proofs.EndToEnd
import Verif.Proofs.UserData
import Verif.Props.Prune

/-!
# Time windows: from the network that is searched to the user's data
-/

namespace Vrpy

/-- Service time of a node, 0 if not given. -/
def Spec.userService (G : DiGraph) (v : Node) : ℚ := (G.nd v).serviceTime.getD 0

/-- Opening time of a node, 0 if not given. -/
def Spec.userLower (G : DiGraph) (v : Node) : ℚ := (G.nd v).lower.getD 0

/-- Closing time of a node, 0 if not given. -/
def Spec.userUpper (G : DiGraph) (v : Node) : ℚ := (G.nd v).upper.getD 0

/-- Travel time on an arc, 0 if not given; arcs that the constructor adds take no time. -/
def Spec.userTime (G : DiGraph) (u v : Node) : ℚ := if v ∈ G.succ u then (G.ed u v).time.getD 0 else 0

/-- When the nodes of a route are reached, in the user's data (waiting until they open). -/
def Spec.userArrivals (G : DiGraph) (t : ℚ) (u : Node) : List Node → List (Node × ℚ)
  | [] => []
  | v :: rest => (v, max (t + userService G u + userTime G u v) (userLower G v)) ::
      userArrivals G (max (t + userService G u + userTime G u v) (userLower G v)) v rest

/-- A route is on time for the user's windows: leaving Source when it opens, every node is reached before it closes; a closing
time 0 at Sink stands for none. -/
def Spec.UserOnTime (G : DiGraph) : List Node → Prop
  | [] => True
  | u :: rest => ∀ p ∈ userArrivals G (userLower G u) u rest,
      p.2 ≤ userUpper G p.1 ∨ (p.1 = .sink ∧ userUpper G .sink = 0)

open Spec

theorem tw_facts {G G' : Net} (hG : WellFormed G) (hD : DepotConnected G) (hfirst : G.nodes.head? = some .source)
    (hsrc : ∃ v, v ∈ G.succ .source) (h : removeInfeasibleArcsTimeWindows G = .ok G') :
    G'.lower = (strengthened G).lower ∧ G'.upper = (strengthened G).upper ∧
      ∀ u v, v ∈ G'.succ u → v ∈ G.succ u ∧ (¬ TwBad (strengthened G) (u, v) ∨ (u = .source ∧ ¬ TwBad G (u, v))) := by
  obtain ⟨v0, hv0⟩ := hsrc
  cases he : G.edges with
  | nil =>
    have := (Net.mem_edges hG .source v0).2 hv0
    rw [he] at this
    cases this
  | cons e0 es =>
    have h0 : e0.1 = .source := by
      unfold Net.edges at he
      cases hn : G.nodes with
      | nil => rw [hn] at hfirst; cases hfirst
      | cons s ns =>
        rw [hn] at hfirst he
        simp only [List.head?_cons, Option.some.injEq] at hfirst
        subst hfirst
        cases hs : G.succ .source with
        | nil => rw [hs] at hv0; cases hv0
        | cons x xs =>
          simp only [List.flatMap_cons, hs, List.map_cons, List.cons_append, List.cons.injEq] at he
          rw [← he.1]
    rw [tw_result hG hD e0 es he] at h
    simp only [Except.ok.injEq] at h
    subst h
    refine ⟨rfl, rfl, ?_⟩
    intro u v hv
    obtain ⟨h1, h2⟩ := mem_removeEdges.1 hv
    refine ⟨h1, ?_⟩
    have hmem := (Net.mem_edges hG u v).2 h1
    rw [he] at hmem
    rw [List.mem_append, not_or] at h2
    rcases List.mem_cons.1 hmem with hmem | hmem
    · right
      refine ⟨by rw [← h0, ← hmem], ?_⟩
      intro hbad
      rw [hmem] at hbad
      exact h2.1 (by simp [hbad, hmem])
    · left
      intro hbad
      exact h2.2 (List.mem_filter.2 ⟨hmem, decide_eq_true hbad⟩)

theorem Searched.windows {P0 P' : Vrp} {K : Nat} {N N3 : Net} (S : Searched P0 P' K N N3) (htw : P0.timeWindows = true)
    (hfirst : P0.G.nodes.head? = some .source) :
    N3.lower = (strengthened N).lower ∧ N3.upper = (strengthened N).upper ∧
      ∀ u v, v ∈ N3.succ u → ¬ TwBad (strengthened N) (u, v) ∨ (u = .source ∧ ¬ TwBad N (u, v)) := by
  obtain ⟨c0, N2, _, hprune, hempty⟩ := S.pruned
  have hwf0 : WellFormed { N with cost := c0 } := ⟨S.wf.1, S.wf.2, S.wf.3, S.wf.4, S.wf.5, S.wf.6, S.wf.7⟩
  obtain ⟨_, _, e3, e4, e5, _⟩ := emptyRouteStep_same hempty
  rw [htw] at hprune
  rw [e4, e5, e3]
  obtain ⟨s, hprune, hconn, hsrc, hwf⟩ : ∃ s, removeInfeasibleArcsTimeWindows { N with succ := s, cost := c0 } = .ok N2 ∧
      DepotConnected { N with succ := s, cost := c0 } ∧ Node.sink ∈ s .source ∧ WellFormed { N with succ := s, cost := c0 } := by
    cases hcs : userCapacities P0.loadCapacity with
    | nil =>
      rw [hcs] at hprune
      exact ⟨N.succ, hprune, S.connected, S.direct, hwf0⟩
    | cons c cs =>
      rw [hcs] at hprune
      obtain ⟨succ', h1, h2, h3⟩ := C05_capacity_pruning_exact { N with cost := c0 } c cs hwf0
      have hcut : removeInfeasibleArcsCapacities { N with cost := c0 } (maxOf c cs) = { N with succ := succ', cost := c0 } := by
        simpa [pruneGraph] using h1
      refine ⟨succ', ?_, ?_, ?_, ?_⟩
      · rw [← hcut]
        simpa [pruneGraph] using hprune
      · intro n hn
        have hmem : Node.cust n ∈ N.customers := mem_customers.2 ⟨hn, by simp, by simp⟩
        have hfit := S.fit _ hmem
        rw [hcs] at hfit
        rcases hfit with h0 | hfit
        · cases h0
        · obtain ⟨k1, k2⟩ := h3 S.demandDepots.1 S.demandDepots.2 _ hmem hfit
          exact ⟨k1 (S.connected n hn).1, k2 (S.connected n hn).2⟩
      · refine (h2 _ _).2 ⟨S.direct, c, by simp, ?_⟩
        rw [S.demandDepots.1, S.demandDepots.2]
        have := S.capsPos c (by rw [hcs]; simp)
        linarith
      · rw [← hcut]
        exact removeEdges_wf hwf0 _
  obtain ⟨k1, k2, k3⟩ := tw_facts hwf hconn (by show N.nodes.head? = _; rw [S.userNodes]; exact hfirst) ⟨_, hsrc⟩ hprune
  exact ⟨k1, k2, fun u v hv => (k3 u v hv).2⟩

/-- On time in the network searched is on time in the network of the reports. -/
theorem Searched.onTime {P0 P' : Vrp} {K : Nat} {N N3 : Net} (S : Searched P0 P' K N N3)
    (hl : N3.lower = (strengthened N).lower) (hu : N3.upper = (strengthened N).upper) {r : List Node} (h : OnTime N3 r) :
    OnTime N r := by
  cases r with
  | nil => trivial
  | cons u rest =>
    refine arrivals_mono N rest u _ _ (lower_le_strengthened N u).1 ?_
    have : arrivalsFrom N3 (N3.lower u) u rest = arrivalsFrom (strengthened N) ((strengthened N).lower u) u rest := by
      rw [arrivalsFrom_congr (G := strengthened N) S.same.service S.same.time hl, hl]
    intro p hp
    rw [← hu]
    exact h p (by rw [this]; exact hp)

/-- On time in the network of the reports is on time for the user. -/
theorem onTime_user {P0 P' : Vrp} {K : Nat} {N N3 : Net} (S : Searched P0 P' K N N3) (U : UserData P0 P' N)
    {r : List Node} (hr : Along (fun u v => v ∈ N.succ u) r) (h : OnTime N r) : UserOnTime P0.G r := by
  have key : ∀ (rest : List Node) (u : Node) (t : ℚ), Along (fun u v => v ∈ N.succ u) (u :: rest) →
      (∀ p ∈ rest.zip (arrivalsFrom N t u rest), p.2 ≤ N.upper p.1) →
      ∀ p ∈ userArrivals P0.G t u rest, p.2 ≤ userUpper P0.G p.1 ∨ (p.1 = .sink ∧ userUpper P0.G .sink = 0) := by
    intro rest
    induction rest with
    | nil => intro u t _ _ p hp; cases hp
    | cons v rest ih =>
      intro u t hal hon p hp
      obtain ⟨hv, hal'⟩ := hal
      obtain ⟨hmu, hmv⟩ := S.wf.edge_mem u v hv
      have ha : max (t + userService P0.G u + userTime P0.G u v) (userLower P0.G v) =
          max (t + N.service u + N.time u v) (N.lower v) := by
        rw [S.service u hmu, S.time u v hv, U.lower v hmv]
        rfl
      rw [arrivalsFrom, List.zip_cons_cons] at hon
      rw [userArrivals, ha, List.mem_cons] at hp
      rcases hp with rfl | hp
      · by_cases hs : v = .sink ∧ userUpper P0.G .sink = 0
        · exact Or.inr hs
        · left
          have := hon _ (List.mem_cons_self ..)
          by_cases hsink : v = .sink
          · subst hsink
            rw [U.upperSink (fun h0 => hs ⟨rfl, h0⟩)] at this
            exact this
          · rw [U.upper v hmv hsink] at this
            exact this
      · exact ih v _ hal' (fun q hq => hon q (List.mem_cons_of_mem _ hq)) p hp
  cases r with
  | nil => trivial
  | cons u rest =>
    cases rest with
    | nil => intro p hp; cases hp
    | cons v rest =>
      have hmu := (S.wf.edge_mem u v hr.1).1
      have hlow : userLower P0.G u = N.lower u := (U.lower u hmu).symm
      show ∀ p ∈ userArrivals P0.G (userLower P0.G u) u (v :: rest), _
      rw [hlow]
      exact key _ u _ hr h

/-- A route with at most one customer that survives the preprocessing is on time. -/
theorem short_onTime {P0 P' : Vrp} {K : Nat} {N N3 : Net} (S : Searched P0 P' K N N3) (U : UserData P0 P' N)
    (hw : ∀ u v, v ∈ N3.succ u → ¬ TwBad (strengthened N) (u, v) ∨ (u = .source ∧ ¬ TwBad N (u, v)))
    (hser : N.service .source = 0)
    (hwin : ∀ v ∈ P0.G.nodes, v = .sink → userUpper P0.G .sink ≠ 0 → userLower P0.G v ≤ userUpper P0.G v)
    (hcw : ∀ v ∈ N.customers, userLower P0.G v ≤ userUpper P0.G v) {mid : List Node} (hlen : mid.length ≤ 1)
    (hmid : ∀ v ∈ mid, v ∈ N.customers)
    (hr : Along (fun u v => v ∈ N3.succ u) (routeOf mid)) : UserOnTime P0.G (routeOf mid) := by
  have hbad : ∀ u v, v ∈ N3.succ u → ¬ TwBad N (u, v) := by
    intro u v hv hb
    rcases hw u v hv with h | h
    · refine h ?_
      unfold TwBad at *
      have h1 := lower_le_strengthened N u
      have h2 := lower_le_strengthened N v
      show (strengthened N).lower u + N.time u v + N.service u > (strengthened N).upper v
      simp only at hb
      linarith
    · exact h.2 hb
  match mid, hlen with
  | [], _ =>
    intro p hp
    simp only [List.nil_append, userArrivals, List.mem_singleton] at hp
    subst hp
    by_cases h0 : userUpper P0.G .sink = 0
    · exact Or.inr ⟨rfl, h0⟩
    left
    have harc : Node.sink ∈ N3.succ .source := hr.1
    have harcN := S.same.succ _ _ harc
    have hb := hbad _ _ harc
    simp only [TwBad, gt_iff_lt, not_lt] at hb
    rw [U.lower _ S.wf.source_mem, U.upperSink h0, S.time _ _ harcN, hser] at hb
    refine max_le ?_ (hwin _ (by rw [← S.userNodes]; exact S.wf.sink_mem) rfl h0)
    have hs : userService P0.G .source = 0 := by rw [← hser]; exact (S.service _ S.wf.source_mem).symm
    rw [hs]
    unfold userLower userTime userUpper
    linarith
  | [v], _ =>
    have hv := hmid v (by simp)
    obtain ⟨hvn, hvs, hvt⟩ := mem_customers.1 hv
    have harc1 : v ∈ N3.succ .source := hr.1
    have harc2 : Node.sink ∈ N3.succ v := hr.2.1
    have h1N := S.same.succ _ _ harc1
    have h2N := S.same.succ _ _ harc2
    have hs : userService P0.G .source = 0 := by rw [← hser]; exact (S.service _ S.wf.source_mem).symm
    have hlowS := U.lower _ S.wf.source_mem
    have hlowv := U.lower _ hvn
    have ht1 := S.time _ _ h1N
    have ht2 := S.time _ _ h2N
    have hb1 := hbad _ _ harc1
    simp only [TwBad, gt_iff_lt, not_lt] at hb1
    rw [hlowS, U.upper v hvn hvt, ht1, hser] at hb1
    intro p hp
    simp only [List.cons_append, List.nil_append, userArrivals, List.mem_cons, List.not_mem_nil, or_false] at hp
    rw [hs] at hp
    rcases hp with rfl | rfl
    · left
      refine max_le ?_ (hcw v hv)
      unfold userLower userTime userUpper
      linarith
    · by_cases h0 : userUpper P0.G .sink = 0
      · exact Or.inr ⟨rfl, h0⟩
      left
      refine max_le ?_ (hwin _ (by rw [← S.userNodes]; exact S.wf.sink_mem) rfl h0)
      have hb2 : ¬ TwBad (strengthened N) (v, .sink) := by
        rcases hw _ _ harc2 with h | h
        · exact h
        · exact absurd h.1 hvs
      simp only [TwBad, gt_iff_lt, not_lt] at hb2
      have hsl : (strengthened N).lower v = max (N.lower v) (N.lower .source + N.time .source v) := by
        simp [strengthened, hv]
      have hsu : (strengthened N).upper .sink = N.upper .sink := by
        have : Node.sink ∉ N.customers := fun h => (mem_customers.1 h).2.2 rfl
        simp [strengthened, this]
      rw [hsl, hsu, U.upperSink h0] at hb2
      have e1 : (strengthened N).time v .sink = userTime P0.G v .sink := ht2
      have e2 : (strengthened N).service v = userService P0.G v := S.service v hvn
      rw [e1, e2, hlowv, hlowS, ht1, max_comm] at hb2
      unfold userLower userUpper
      have e3 : userTime P0.G .source v = if v ∈ P0.G.succ .source then (P0.G.ed .source v).time.getD 0 else 0 := rfl
      rw [e3, add_zero]
      linarith

end Vrpy
