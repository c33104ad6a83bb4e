import Verif.Proofs.CostVectors
import Verif.Props.Arguments
import Mathlib.Tactic.Ring

/-!
# C45, C46: one cost per vehicle type, one fixed cost per route
-/

namespace Vrpy

open Spec

/-- The cost the user gave an arc for vehicle type `k`: a number, or the `k`-th number of a list. -/
def Spec.userCost (c : Option Cost) (k : Nat) : ℚ :=
  match c with
  | some (.scalar c) => c
  | some (.list cs) => cs.getD k 0
  | none => 0

/-- The fixed cost the user gave for vehicle type `k`. -/
def Spec.userFixedCost (fc : Arg ℚ) (k : Nat) : ℚ :=
  match fc with
  | .one q => q
  | .many xs => xs.getD k 0

/-- The costs are given as documented: one number per arc, except in a mixed fleet (a list per arc). -/
def Spec.CostsAsDocumented (P : Vrp) : Prop :=
  P.mixedFleet = false → ∀ u v, v ∈ P.G.succ u → ∃ c, (P.G.ed u v).cost = some (.scalar c) ∨ (P.G.ed u v).cost = some (.list [c])

private theorem formatCosts_arc {G : DiGraph} {u v : Node} {c : ℚ} (hv : v ∈ G.succ u)
    (h : (G.ed u v).cost = some (.scalar c) ∨ (G.ed u v).cost = some (.list [c])) :
    ((formatCosts G).ed u v).cost = some (.list [c]) := by
  simp only [formatCosts, DiGraph.hasEdge, hv, decide_true, if_true]
  rcases h with h | h <;> simp [h]

/-- What happens to the cost of an arc of the user's graph. -/
theorem arcs_of_startSolve {dist : DistOracle} {strategy : String} {cspy : Bool} {R Q : List (List Node)} {P P' : Vrp}
    (hwf : P.G.WF) (hs : Node.source ∈ P.G.nodes) (ht : Node.sink ∈ P.G.nodes) (hedge : ∃ u v, v ∈ P.G.succ u)
    (hdoc : CostsAsDocumented P) (h : P.startSolve dist strategy cspy R Q = .ok P') :
    ∃ K N N3, P'.vehicleTypes = some K ∧ P'.H = some N ∧ P'.G = N3.toDiGraph ∧ SameData N N3 ∧
      (∀ u v, v ∈ N.succ u ↔ v ∈ P.G.succ u ∨ (u = .source ∧ v = .sink)) ∧
      (Node.sink ∉ P.G.succ .source → N.cost .source .sink = List.replicate K 0) ∧
      ∀ u v, v ∈ P.G.succ u → (N.cost u v).length = K ∧
        ∀ k, k < K → (N.cost u v).getD k 0 = userCost (P.G.ed u v).cost k +
          if u = .source then userFixedCost P.fixedCost k else 0 := by
  unfold Vrp.startSolve at h
  simp only at h
  set P1 : Vrp := { P with
    moreRoutes := true
    preassignments := if Q ≠ [] then Q else P.preassignments
    initialRoutes := if R ≠ [] then R else P.initialRoutes } with hP1
  obtain ⟨G1, N, N1, N2, N3, S⟩ := preSolve_inv h
  set P2 : Vrp := if P1.mixedFleet then P1 else P1.format with hP2
  -- the fleet
  have hnodes2 : P2.G.nodes = P.G.nodes ∧ P2.G.succ = P.G.succ := by
    rw [hP2]; split <;> exact ⟨rfl, rfl⟩
  -- formatted costs
  have hform : ∃ K, P'.vehicleTypes = some K ∧ ∀ u v, v ∈ P.G.succ u →
      ∃ cs, (P2.G.ed u v).cost = some (.list cs) ∧ cs.length = K ∧
        ∀ k, k < K → cs.getD k 0 = userCost (P.G.ed u v).cost k := by
    have hvt := S.vt
    have hargs := S.args
    cases hm : P.mixedFleet with
    | false =>
      have : P2 = P1.format := by rw [hP2]; simp [hP1, hm]
      rw [this] at hvt ⊢
      have hm' : P1.format.mixedFleet = false := hm
      simp only [Vrp.typesStep, hm', Bool.false_eq_true, if_false, Except.ok.injEq] at hvt
      refine ⟨1, hvt.symm, ?_⟩
      intro u v hv
      obtain ⟨c, hc⟩ := hdoc hm u v hv
      refine ⟨[c], formatCosts_arc (G := P.G) hv hc, rfl, ?_⟩
      intro k hk
      have : k = 0 := by omega
      subst this
      rcases hc with hc | hc <;> simp [hc, userCost]
    | true =>
      have hP21 : P2 = P1 := by rw [hP2]; simp [hP1, hm]
      rw [hP21] at hargs ⊢
      have hm' : P1.mixedFleet = true := hm
      obtain ⟨_, _, _, _, hmix⟩ := (C44_accepts_exactly _ _ _ _ _ _ _ _ _).1 hargs
      have key := (hmix hm').2
      obtain ⟨u0, v0, hv0⟩ := hedge
      obtain ⟨cs0, _, hcs0⟩ := key (u0, v0) ((DiGraph.mem_edges _ hwf _ _).2 hv0)
      refine ⟨cs0.length, hcs0.symm, ?_⟩
      intro u v hv
      obtain ⟨cs, hcs, hlen⟩ := key (u, v) ((DiGraph.mem_edges _ hwf _ _).2 hv)
      refine ⟨cs, hcs, ?_, ?_⟩
      · have := hlen.trans hcs0.symm
        exact Option.some.inj this
      · intro k _
        have hcs' : (P.G.ed u v).cost = some (.list cs) := hcs
        simp [userCost, hcs']
  obtain ⟨K, hK, hcost2⟩ := hform
  have hKd : P'.vehicleTypes.getD 0 = K := by rw [hK]; rfl
  have hfixed := S.fixed
  have hdummy := S.dummy
  rw [hKd] at hfixed hdummy
  -- after the fixed costs
  have hG1 : G1.nodes = P.G.nodes ∧ G1.succ = P.G.succ ∧ ∀ u v, v ∈ P.G.succ u →
      ∃ cs, (G1.ed u v).cost = some (.list cs) ∧ cs.length = K ∧
        ∀ k, k < K → cs.getD k 0 = userCost (P.G.ed u v).cost k +
          if u = .source then userFixedCost P.fixedCost k else 0 := by
    have hfc : ∀ k, k < K → (P2.fixedCost.toList).getD k 0 = userFixedCost P.fixedCost k := by
      intro k hk
      cases hm : P.mixedFleet with
      | false =>
        have h2 : P2 = P1.format := by rw [hP2]; simp [hP1, hm]
        have hvt := S.vt
        rw [h2] at hvt ⊢
        have hm' : P1.format.mixedFleet = false := hm
        simp only [Vrp.typesStep, hm', Bool.false_eq_true, if_false, Except.ok.injEq] at hvt
        rw [hK] at hvt
        cases hvt
        have : k = 0 := by omega
        subst this
        show ((P.fixedCost.wrap _).toList).getD 0 0 = _
        cases P.fixedCost with
        | one q =>
          by_cases hq : q = 0 <;> simp [Arg.wrap, Arg.toList, userFixedCost, hq]
        | many xs => simp [Arg.wrap, Arg.toList, userFixedCost]
      | true =>
        have h2 : P2 = P1 := by rw [hP2]; simp [hP1, hm]
        have hvt := S.vt
        rw [h2] at hvt ⊢
        have hm' : P1.mixedFleet = true := hm
        simp only [Vrp.typesStep, hm', if_true] at hvt
        split at hvt
        · cases hvt
        · rename_i hsc
          have hf : P1.fixedCost = P.fixedCost := rfl
          simp only [Vrp.scalarInMixed, hf, Bool.or_eq_true, not_or] at hsc
          rw [hf]
          cases hfc : P.fixedCost with
          | one q =>
            have := hsc.1.2
            simp only [hfc, decide_eq_true_eq, not_not] at this
            simp [Arg.toList, userFixedCost, this]
          | many xs => simp [Arg.toList, userFixedCost]
    unfold fixedStep at hfixed
    split at hfixed
    · obtain ⟨f1, _, f3, _, f5, f6⟩ := addFixedCosts_ok (by rw [hnodes2.2]; exact hwf.succ_nodup _) hfixed
      refine ⟨f1.trans hnodes2.1, f3.trans hnodes2.2, ?_⟩
      intro u v hv
      obtain ⟨cs, c1, c2, c3⟩ := hcost2 u v hv
      by_cases hu : u = .source
      · subst hu
        obtain ⟨cs1, cs2, e1, e2, e3, e4⟩ := f6 v (by rw [hnodes2.2]; exact hv)
        rw [c1] at e1
        cases e1
        refine ⟨cs2, e2, e3.trans c2, ?_⟩
        intro k hk
        rw [e4 k, c3 k hk, if_pos hk, hfc k hk, if_pos rfl]
      · refine ⟨cs, ?_, c2, ?_⟩
        · rw [f5 u v (by simp [hu])]; exact c1
        · intro k hk
          rw [c3 k hk, if_neg hu, add_zero]
    · rename_i hnil
      push Not at hnil
      cases hfixed
      refine ⟨hnodes2.1, hnodes2.2, ?_⟩
      intro u v hv
      obtain ⟨cs, c1, c2, c3⟩ := hcost2 u v hv
      refine ⟨cs, c1, c2, ?_⟩
      intro k hk
      rw [c3 k hk, ← hfc k hk, hnil]
      simp
  obtain ⟨N', d1, d2, _, d4, d5, d6⟩ := C47_defaults K G1 (by rw [hG1.1]; exact hs) (by rw [hG1.1]; exact ht)
  rw [hdummy] at d1
  cases d1
  have hres := S.result
  refine ⟨K, N, N3, hK, by rw [hres], by rw [hres], ?_, ?_, ?_, ?_⟩
  · exact ((lockStep_same S.locked).trans (pruneStep_same S.pruned).same).trans (emptyRouteStep_same S.emptyRoute).1
  · intro u v
    rw [d4, hG1.2.1]
  · intro hno
    exact (d6 (by rw [hG1.2.1]; exact hno)).2
  · intro u v hv
    obtain ⟨cs, c1, c2, c3⟩ := hG1.2.2 u v hv
    have := (d5 u v (by rw [hG1.2.1]; exact hv)).2.2 cs c1
    rw [this]
    exact ⟨c2, c3⟩

/-- **C45.** When the checks of `solve()` pass, there is a number `K` of vehicle types, every arc of the search network
and of the network used for the reports carries exactly `K` costs, and looking up the cost of type `k < K` never fails. -/
theorem C45_cost_per_type {dist : DistOracle} {strategy : String} {cspy : Bool} {R Q : List (List Node)} {P P' : Vrp}
    (hwf : P.G.WF) (hs : Node.source ∈ P.G.nodes) (ht : Node.sink ∈ P.G.nodes) (hedge : ∃ u v, v ∈ P.G.succ u)
    (hdoc : CostsAsDocumented P) (h : P.startSolve dist strategy cspy R Q = .ok P') :
    ∃ K N, P'.vehicleTypes = some K ∧ P'.H = some N ∧
      (∀ u v, v ∈ P'.G.succ u → ∃ cs, (P'.G.ed u v).cost = some (.list cs) ∧ cs.length = K) ∧
      (∀ u v, v ∈ N.succ u → (N.cost u v).length = K ∧ ∀ k, k < K → ∃ c, N.edgeCost u v k = .ok c) := by
  obtain ⟨K, N, N3, hK, hN, hG, hsame, hsucc, hnew, hcost⟩ := arcs_of_startSolve hwf hs ht hedge hdoc h
  have hlen : ∀ u v, v ∈ N.succ u → (N.cost u v).length = K := by
    intro u v hv
    by_cases hv' : v ∈ P.G.succ u
    · exact (hcost u v hv').1
    · rcases (hsucc u v).1 hv with h | ⟨rfl, rfl⟩
      · exact absurd h hv'
      · rw [hnew hv']; simp
  refine ⟨K, N, hK, hN, ?_, ?_⟩
  · intro u v hv
    rw [hG] at hv ⊢
    exact ⟨N3.cost u v, rfl, by rw [hsame.costLength]; exact hlen u v (hsame.succ u v hv)⟩
  · intro u v hv
    refine ⟨hlen u v hv, ?_⟩
    intro k hk
    have : k < (N.cost u v).length := by rw [hlen u v hv]; exact hk
    exact ⟨(N.cost u v)[k], by simp [Net.edgeCost, Net.hasEdge, hv, List.getElem?_eq_getElem this]⟩

/-- **C46.** On a first `solve()` the cost of a route for vehicle type `k`, in the network used for the reports, is the
sum of the user's arc costs plus exactly one fixed cost of type `k`.  The route must drive along the user's arcs. -/
theorem C46_fixed_cost_once {dist : DistOracle} {strategy : String} {cspy : Bool} {R Q : List (List Node)} {P P' : Vrp}
    (hwf : P.G.WF) (hs : Node.source ∈ P.G.nodes) (ht : Node.sink ∈ P.G.nodes) (hedge : ∃ u v, v ∈ P.G.succ u)
    (hdoc : CostsAsDocumented P) (h : P.startSolve dist strategy cspy R Q = .ok P') :
    ∃ K N, P'.vehicleTypes = some K ∧ P'.H = some N ∧
      ∀ mid k, k < K → (∀ v ∈ mid, ∃ n, v = Node.cust n) → Along (fun u v => v ∈ P.G.succ u) (routeOf mid) →
        cost N k (routeOf mid) =
          legSum (fun u v => userCost (P.G.ed u v).cost k) (routeOf mid) + userFixedCost P.fixedCost k := by
  obtain ⟨K, N, N3, hK, hN, _, _, _, _, hcost⟩ := arcs_of_startSolve hwf hs ht hedge hdoc h
  refine ⟨K, N, hK, hN, ?_⟩
  intro mid k hk hmid hal
  have hin : ∀ l : List Node, (∀ u ∈ l.dropLast, u ≠ .source) → Along (fun u v => v ∈ P.G.succ u) l →
      legSum (fun u v => (N.cost u v).getD k 0) l = legSum (fun u v => userCost (P.G.ed u v).cost k) l := by
    intro l
    induction l with
    | nil => intros; rfl
    | cons a l ih =>
      cases l with
      | nil => intros; rfl
      | cons b l =>
        intro h1 h2
        have ha : a ≠ .source := h1 a (by simp)
        simp only [legSum]
        rw [ih (fun u hu => h1 u (by rw [List.dropLast_cons_cons]; exact List.mem_cons_of_mem _ hu)) h2.2,
          (hcost a b h2.1).2 k hk, if_neg ha, add_zero]
  have hmid' : ∀ u ∈ (mid ++ [Node.sink]).dropLast, u ≠ .source := by
    intro u hu
    simp only [List.dropLast_concat] at hu
    obtain ⟨n, rfl⟩ := hmid u hu
    simp
  unfold cost routeOf at *
  cases hm : mid ++ [Node.sink] with
  | nil => simp at hm
  | cons b l =>
    rw [hm] at hal hmid'
    simp only [legSum]
    rw [hin (b :: l) hmid' hal.2, (hcost .source b hal.1).2 k hk, if_pos rfl]
    ring

/-- The Source-Sink arc that `solve()` adds itself (for the empty route) carries no cost and no fixed cost. -/
theorem C46_empty_route_free {dist : DistOracle} {strategy : String} {cspy : Bool} {R Q : List (List Node)} {P P' : Vrp}
    (hwf : P.G.WF) (hs : Node.source ∈ P.G.nodes) (ht : Node.sink ∈ P.G.nodes) (hedge : ∃ u v, v ∈ P.G.succ u)
    (hdoc : CostsAsDocumented P) (hno : Node.sink ∉ P.G.succ .source)
    (h : P.startSolve dist strategy cspy R Q = .ok P') :
    ∃ N, P'.H = some N ∧ ∀ k, cost N k [.source, .sink] = 0 := by
  obtain ⟨K, N, N3, hK, hN, _, _, _, hnew, _⟩ := arcs_of_startSolve hwf hs ht hedge hdoc h
  refine ⟨N, hN, ?_⟩
  intro k
  simp only [cost, legSum, hnew hno, add_zero]
  by_cases hk : k < K <;> simp [List.getD_eq_getElem?_getD, List.getElem?_replicate, hk]

/-- Two customers, scalar costs. -/
def exC46 : Vrp where
  G := {
    nodes := [.source, .cust 1, .cust 2, .sink]
    nd := fun v => if v.isDepot then {} else { demand := some 2 }
    succ := fun u => match u with
      | .source => [.cust 1, .cust 2]
      | .cust 1 => [.cust 2, .sink]
      | .cust 2 => [.sink]
      | _ => []
    ed := fun _ v => { cost := some (.scalar (if v = .sink then 3 else 1)) } }
  loadCapacity := .one (.int 5)
  fixedCost := .one 10

/-- The same with two vehicle types. -/
def exC46Mixed : Vrp where
  G := { exC46.G with ed := fun _ v => { cost := some (.list (if v = .sink then [3, 6] else [1, 2])) } }
  loadCapacity := .many [.int 5, .int 8]
  fixedCost := .many [10, 20]
  mixedFleet := true

/-- C45 and C46 apply to both examples: the hypotheses hold, the call succeeds, and the route over both customers costs
1+1+3+10 = 15 (type 0), 2+2+6+20 = 30 (type 1). -/
example : (∃ P', exC46.startSolve (fun _ _ _ => 0) "Exact" true [] [] = .ok P' ∧ ∃ N, P'.H = some N ∧
      cost N 0 [.source, .cust 1, .cust 2, .sink] = 15) ∧
    (∃ P', exC46Mixed.startSolve (fun _ _ _ => 0) "Exact" true [] [] = .ok P' ∧ ∃ N, P'.H = some N ∧
      cost N 1 [.source, .cust 1, .cust 2, .sink] = 30) ∧
    CostsAsDocumented exC46 ∧ CostsAsDocumented exC46Mixed ∧ exC46.G.WF ∧ (∃ u v, v ∈ exC46.G.succ u) := by
  have h1 : (match exC46.startSolve (fun _ _ _ => 0) "Exact" true [] [] with
    | .ok P' => match P'.H with
      | some N => decide (cost N 0 [.source, .cust 1, .cust 2, .sink] = 15)
      | none => false
    | .error _ => false) = true := by decide +kernel
  have h2 : (match exC46Mixed.startSolve (fun _ _ _ => 0) "Exact" true [] [] with
    | .ok P' => match P'.H with
      | some N => decide (cost N 1 [.source, .cust 1, .cust 2, .sink] = 30)
      | none => false
    | .error _ => false) = true := by decide +kernel
  refine ⟨?_, ?_, ?_, ?_, ?_, ⟨.source, .cust 1, by decide⟩⟩
  · split at h1
    · rename_i P' hP'
      split at h1
      · rename_i N hN
        exact ⟨P', hP', N, hN, of_decide_eq_true h1⟩
      · cases h1
    · cases h1
  · split at h2
    · rename_i P' hP'
      split at h2
      · rename_i N hN
        exact ⟨P', hP', N, hN, of_decide_eq_true h2⟩
      · cases h2
    · cases h2
  · intro _ u v _
    exact ⟨_, Or.inl rfl⟩
  · intro h
    simp [exC46Mixed] at h
  · refine ⟨by decide, ?_, ?_⟩
    · intro u; simp only [exC46]; split <;> decide
    · intro u v hv
      simp only [exC46] at hv ⊢
      split at hv <;> simp at hv <;> (try rcases hv with rfl | rfl) <;> (try subst hv) <;> decide

end Vrpy
