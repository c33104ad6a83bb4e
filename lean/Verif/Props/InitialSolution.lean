import Verif.Props.InitialRoutes
import Verif.Props.ClarkeWright
import Verif.Props.Greedy
import Verif.SpecColumns

/-!
# C56: the initial solution `solve()` computes itself
-/

namespace Vrpy

open Spec

/-- Every customer is on some route. -/
def Spec.CoversAll (G : Net) (rs : List (List Node)) : Prop := ∀ n, Node.cust n ∈ G.nodes → ∃ r ∈ rs, Node.cust n ∈ r

private theorem mem_cust {G : Net} {v : Node} (h : v ∈ G.customers) : ∃ n, v = .cust n := by
  have := mem_customers.1 h
  cases v with
  | source => exact absurd rfl this.2.1
  | sink => exact absurd rfl this.2.2
  | cust n => exact ⟨n, rfl⟩

private theorem visits_covers {G : Net} {rs : List (List Node)} (h : VisitsEachOnce G.customers rs) : CoversAll G rs := by
  intro n hn
  have := h (.cust n) (mem_customers.2 ⟨hn, by simp, by simp⟩)
  have hne : (rs.flatten.filter (fun x => x = Node.cust n)) ≠ [] := by
    intro h0; rw [h0] at this; simp at this
  obtain ⟨x, hx⟩ := List.exists_mem_of_ne_nil _ hne
  obtain ⟨hx1, hx2⟩ := List.mem_filter.1 hx
  obtain ⟨r, hr, hxr⟩ := List.mem_flatten.1 hx1
  exact ⟨r, hr, by simpa using (of_decide_eq_true hx2) ▸ hxr⟩

/-- All Clarke & Wright runs together. -/
private theorem cwRoutes_ok {G : Net} {cap dur st : Option ℚ} {o : ℚ → CWOracle} (hG : WellFormed G)
    (hD : DepotConnected G) (hK : CostsFor G 1) (ho : ∀ a, (o a).Valid) :
    ∃ rs, cwRoutes G cap dur st o = .ok rs ∧ (∃ ps, ps.Sublist rs ∧ VisitsEachOnce G.customers ps) ∧
      ∀ r ∈ rs, ∃ a val rs', cwRun G { cap := cap, duration := dur, numStops := st, alpha := a } (o a) = .ok (val, rs') ∧
        r ∈ rs' ∧ IsSimpleRoute G r := by
  have key : ∀ (as : List ℚ) (acc : List (List Node)), ∃ rs, as.foldlM (fun acc a =>
      match cwRun G { cap := cap, duration := dur, numStops := st, alpha := a } (o a) with
      | .error e => .error e
      | .ok (_, rs) => .ok (acc ++ rs)) acc = (.ok (acc ++ rs) : Py _) ∧ (as ≠ [] → ∃ ps, ps.Sublist rs ∧ VisitsEachOnce G.customers ps) ∧
      ∀ r ∈ rs, ∃ a val rs', cwRun G { cap := cap, duration := dur, numStops := st, alpha := a } (o a) = .ok (val, rs') ∧
        r ∈ rs' ∧ IsSimpleRoute G r := by
    intro as
    induction as with
    | nil => intro acc; exact ⟨[], by simp [List.foldlM, pure, Except.pure], fun h => absurd rfl h, by simp⟩
    | cons a as ih =>
      intro acc
      obtain ⟨val, rs1, h1, h2, h3⟩ := C07_clarke_wright_partition G
        { cap := cap, duration := dur, numStops := st, alpha := a } (o a) hG hD hK (ho a)
      obtain ⟨rs2, h4, _, h6⟩ := ih (acc ++ rs1)
      refine ⟨rs1 ++ rs2, ?_, ?_, ?_⟩
      · rw [List.foldlM_cons, h1]
        simp only [bind, Except.bind]
        rw [h4, List.append_assoc]
      · exact fun _ => ⟨rs1, List.sublist_append_left _ _, h3⟩
      · intro r hr
        rcases List.mem_append.1 hr with hr | hr
        · exact ⟨a, val, rs1, h1, hr, h2 r hr⟩
        · exact h6 r hr
  obtain ⟨rs, h1, h2, h3⟩ := key alphas []
  rw [List.nil_append] at h1
  exact ⟨rs, h1, h2 (by decide +kernel), h3⟩

/-- The initial solution, whatever the fuel. -/
theorem initial_facts (P : Vrp) (N : Net) (o : ℚ → CWOracle) (hG : WellFormed N) (hD : DepotConnected N)
    (hK : CostsFor N 1) (hss : Node.sink ∈ N.succ .source) (ho : ∀ a, (o a).Valid)
    (hdem : N.demand .source = 0 ∧ N.demand .sink = 0) (hser : N.service .source = 0 ∧ N.service .sink = 0)
    (hno : P.initialRoutes = []) (hpd : P.pickupDelivery = false)
    (hcap : ∀ c ∈ capacities P.loadCapacity.toList, 0 < c)
    (hone : P.plain = true → (capacities P.loadCapacity.toList).length ≤ 1)
    (hfit : ∀ v ∈ N.customers, SomeCarries (capacities P.loadCapacity.toList) (N.demand v))
    {fuel : Nat} {rs : List (List Node)} (h : P.chooseInitial N o fuel = .ok (some rs)) :
    CoversAll N rs ∧
      (∃ ps, ps.Sublist rs ∧ VisitsEachOnce N.customers ps) ∧
      ∀ r ∈ rs, IsSimpleRoute N r ∧ WithinStops P.numStops.stops (stops r).length ∧
        SomeCarries (capacities P.loadCapacity.toList) (load N r) := by
  unfold Vrp.chooseInitial Vrp.initialSolution at h
  simp only [hno, ne_eq, not_true_eq_false, if_false, hpd, Bool.false_eq_true] at h
  by_cases hpl : P.plain = true
  · simp only [hpl, if_true] at h
    obtain ⟨rs0, h1, ⟨ps, hps, h2⟩, h3⟩ := cwRoutes_ok (cap := P.cap0) (dur := P.duration.limit)
      (st := P.numStops.stops.map (fun n => (n : ℚ))) hG hD hK ho
    rw [h1] at h
    simp only at h
    obtain ⟨val, rs', h4, rfl⟩ : ∃ val rs', greedyRun N
        { cap := P.cap0, numStops := P.numStops.stops, duration := P.duration.limit } fuel = .ok (some (val, rs')) ∧
        rs = rs0 ++ rs' := by
      cases hg : greedyRun N { cap := P.cap0, numStops := P.numStops.stops, duration := P.duration.limit } fuel with
      | error e => simp [hg] at h
      | ok r =>
        cases r with
        | none => simp [hg] at h
        | some r =>
          simp only [hg, Except.ok.injEq, Option.some.injEq] at h
          exact ⟨r.1, r.2, rfl, h.symm⟩
    have h5 := C11_greedy_feasible N
      { cap := P.cap0, numStops := P.numStops.stops, duration := P.duration.limit } hG hD hK hss hdem hser fuel val rs' h4
    -- the capacity
    have hcap0 : ∀ q, (∀ c, P.cap0 = some c → q ≤ c) → SomeCarries (capacities P.loadCapacity.toList) q := by
      intro q hq
      unfold Vrp.cap0 at hq
      cases hc : capacities P.loadCapacity.toList with
      | nil => exact Or.inl rfl
      | cons c cs => rw [hc] at hq; exact Or.inr ⟨c, by simp, hq c rfl⟩
    have hfit0 : ∀ c, P.cap0 = some c → c ≠ 0 → ∀ v ∈ N.customers, N.demand v ≤ c := by
      intro c hc _ v hv
      have hl := hone hpl
      have := hfit v hv
      unfold Vrp.cap0 at hc
      cases hcs : capacities P.loadCapacity.toList with
      | nil => rw [hcs] at hc; simp at hc
      | cons c' cs =>
        rw [hcs] at hc hl this
        simp only [List.head?_cons, Option.some.injEq] at hc
        subst hc
        have : cs = [] := by cases cs with | nil => rfl | cons _ _ => simp at hl
        subst this
        rcases ‹SomeCarries _ _› with h | ⟨x, hx, hle⟩
        · cases h
        · simp only [List.mem_singleton] at hx; exact hx ▸ hle
    have hpos : ∀ c, P.cap0 = some c → 0 < c := fun c hc => hcap c (List.mem_of_mem_head? (by rw [Vrp.cap0] at hc; rw [hc]; rfl))
    have hst1 : ∀ m, P.numStops.stops = some m → 1 ≤ m := by
      intro m hm
      unfold PyVal.stops at hm
      split at hm
      · split at hm
        · cases hm; omega
        · cases hm
      · cases hm
    refine ⟨?_, ⟨ps, hps.trans (List.sublist_append_left _ _), h2⟩, ?_⟩
    · intro m hm
      obtain ⟨r, hr, hmr⟩ := visits_covers h2 m hm
      exact ⟨r, List.mem_append_left _ (hps.subset hr), hmr⟩
    · intro r hr
      rcases List.mem_append.1 hr with hr | hr
      · obtain ⟨a, val', rs1, hrun, hr1, hsimple⟩ := h3 r hr
        have hlim := C08_clarke_wright_capacity_stops N _ (o a) hG hD hK (ho a) hdem hfit0 (by
          intro m hm _
          cases hns : P.numStops.stops with
          | none => simp [hns] at hm
          | some m' =>
            rw [hns] at hm
            have hm : (m' : ℚ) = m := Option.some.inj hm
            rw [← hm]
            exact_mod_cast hst1 m' hns) val' rs1 hrun r hr1
        refine ⟨hsimple, ?_, ?_⟩
        · intro m hm hm0
          have := hlim.2 (m : ℚ) (by simp [hm]) (by exact_mod_cast hm0)
          exact_mod_cast this
        · exact hcap0 _ (fun c hc => hlim.1 c hc (ne_of_gt (hpos c hc)))
      · refine ⟨h5.1 r hr, fun m hm hm0 => h5.2.2.2.1 r hr m hm hm0, ?_⟩
        refine hcap0 _ (fun c hc => ?_)
        by_cases hs : stops r = []
        · obtain ⟨⟨mid, rfl, hmid, _⟩, _⟩ := h5.1 r hr
          have hst : stops (routeOf mid) = mid := stops_routeOf (G := N) (fun v hv => by
            obtain ⟨⟨n, rfl⟩, h⟩ := hmid v hv
            exact mem_customers.2 ⟨h, by simp, by simp⟩)
          rw [hst] at hs
          subst hs
          simp only [load, routeOf, List.nil_append, List.map_cons, List.map_nil, List.sum_cons, List.sum_nil, hdem,
            add_zero]
          exact (hpos c hc).le
        · exact (h5.2.2.1 r hr hs).1 c hc (ne_of_gt (hpos c hc))
  · simp only [hpl, if_false, Bool.false_eq_true, Except.ok.injEq, Option.some.injEq] at h
    subst h
    refine ⟨?_, ⟨roundTrips N, List.Sublist.refl _, ?_⟩, ?_⟩
    · intro n hn
      refine ⟨[.source, .cust n, .sink], ?_, by simp⟩
      exact List.mem_map.2 ⟨.cust n, mem_customers.2 ⟨hn, by simp, by simp⟩, rfl⟩
    · intro v hv
      have hv' := mem_customers.1 hv
      have : roundTrips N = (N.customers.map (fun v => [v])).map routeOf := by
        rw [List.map_map]; rfl
      rw [this, count_routeOfs _ v hv'.2.1 hv'.2.2]
      have hfl : (N.customers.map (fun v => [v])).flatten = N.customers := by
        generalize N.customers = l
        induction l with
        | nil => rfl
        | cons a l ih => simp [ih]
      rw [hfl]
      exact filter_length_one (hG.nodes_nodup.filter _) hv
    · intro r hr
      obtain ⟨v, hv, rfl⟩ := List.mem_map.1 hr
      obtain ⟨n, rfl⟩ := mem_cust hv
      have hn := (mem_customers.1 hv).1
      have hsim : IsSimpleRoute N (routeOf [.cust n]) :=
        isSimpleRoute_routeOf (L := [.cust n]) (by simpa using hv) (by simp)
          (by simpa [Along, routeOf] using hD n hn)
      refine ⟨hsim, ?_, ?_⟩
      · intro m hm hm0
        have : stops [Node.source, Node.cust n, Node.sink] = [.cust n] := by simp [stops]
        rw [this]
        simp; omega
      · have : load N [.source, .cust n, .sink] = N.demand (.cust n) := by simp [load, hdem]
        rw [this]
        exact hfit _ hv

/-- **C56.** If the user gives no initial routes and the problem is not a pickup and delivery problem, computing the
initial solution never fails; it consists of simple Source-Sink routes, covers every customer, contains a set of routes
`ps` visiting each customer exactly once, and respects the stop limit; if every single customer fits some vehicle, so does every route.  (In the cases handled by Clarke & Wright and
greedy the code looks only at the first capacity, so there must not be several.) -/
theorem C56_initial_routes (P : Vrp) (N : Net) (o : ℚ → CWOracle) (hG : WellFormed N) (hD : DepotConnected N)
    (hK : CostsFor N 1) (hss : Node.sink ∈ N.succ .source) (ho : ∀ a, (o a).Valid)
    (hdem : N.demand .source = 0 ∧ N.demand .sink = 0) (hser : N.service .source = 0 ∧ N.service .sink = 0)
    (hno : P.initialRoutes = []) (hpd : P.pickupDelivery = false)
    (hcap : ∀ c ∈ capacities P.loadCapacity.toList, 0 < c)
    (hone : P.plain = true → (capacities P.loadCapacity.toList).length ≤ 1)
    (hfit : ∀ v ∈ N.customers, SomeCarries (capacities P.loadCapacity.toList) (N.demand v)) :
    ∃ n rs, (∀ fuel, n ≤ fuel → P.chooseInitial N o fuel = .ok (some rs)) ∧ CoversAll N rs ∧
      (∃ ps, ps.Sublist rs ∧ VisitsEachOnce N.customers ps) ∧
      ∀ r ∈ rs, IsSimpleRoute N r ∧ WithinStops P.numStops.stops (stops r).length ∧
        SomeCarries (capacities P.loadCapacity.toList) (load N r) := by
  have htot : ∃ n rs, ∀ fuel, n ≤ fuel → P.chooseInitial N o fuel = .ok (some rs) := by
    unfold Vrp.chooseInitial Vrp.initialSolution
    simp only [hno, ne_eq, not_true_eq_false, if_false, hpd, Bool.false_eq_true]
    by_cases hpl : P.plain = true
    · simp only [hpl, if_true]
      obtain ⟨rs, h1, _⟩ := cwRoutes_ok (cap := P.cap0) (dur := P.duration.limit)
        (st := P.numStops.stops.map (fun n => (n : ℚ))) hG hD hK ho
      obtain ⟨n, val, rs', h4⟩ := C11_greedy_terminates N
        { cap := P.cap0, numStops := P.numStops.stops, duration := P.duration.limit } hG hD hK hss
      refine ⟨n, rs ++ rs', ?_⟩
      intro fuel hf
      rw [h1]
      simp only [h4 fuel hf]
    · simp only [hpl, if_false, Bool.false_eq_true]
      exact ⟨0, roundTrips N, fun _ _ => rfl⟩
  obtain ⟨n, rs, h⟩ := htot
  exact ⟨n, rs, h, initial_facts P N o hG hD hK hss ho hdem hser hno hpd hcap hone hfit (h n le_rfl)⟩

/-- **C56**, pickup and delivery.  If for every request the arcs Source-pickup, pickup-delivery, delivery-Sink exist,
the initial solution is exactly one route per request, in the order of the nodes. -/
theorem C56_requests (P : Vrp) (N : Net) (o : ℚ → CWOracle) (fuel : Nat) (hno : P.initialRoutes = [])
    (hpd : P.pickupDelivery = true) (hG : WellFormed N)
    (hreq : ∀ v ∈ N.nodes, ∀ w, N.request v = some w → v ≠ w ∧ v ∈ N.customers ∧ w ∈ N.customers ∧
      v ∈ N.succ .source ∧ w ∈ N.succ v ∧ Node.sink ∈ N.succ w) :
    ∃ rs, P.chooseInitial N o fuel = .ok (some rs) ∧ (∀ r ∈ rs, IsSimpleRoute N r) ∧
      (∀ v ∈ N.nodes, ∀ w, N.request v = some w → [.source, v, w, .sink] ∈ rs) ∧
      ∀ r ∈ rs, ∃ v ∈ N.nodes, ∃ w, N.request v = some w ∧ r = [.source, v, w, .sink] := by
  have hpl : P.plain = false := by simp [Vrp.plain, hpd]
  unfold Vrp.chooseInitial Vrp.initialSolution
  simp only [hno, ne_eq, not_true_eq_false, if_false, hpd, hpl, if_true, Bool.false_eq_true]
  have key : ∀ (l : List Node) (acc : List (List Node)), (∀ v ∈ l, v ∈ N.nodes) → ∃ rs, l.foldlM (fun acc v =>
      match N.request v with
      | none => .ok acc
      | some w =>
        match (if P.timeWindows then checkPickupDeliveryTimeWindows N [(.source, v), (v, w), (w, .sink)] else .ok ()) with
        | .error e => .error e
        | .ok _ => .ok (acc ++ [[.source, v, w, .sink]])) acc = (.ok (acc ++ rs) : Py _) ∧
      ∀ r, r ∈ rs ↔ ∃ v ∈ l, ∃ w, N.request v = some w ∧ r = [.source, v, w, .sink] := by
    intro l
    induction l with
    | nil => intro acc _; exact ⟨[], by simp [List.foldlM, pure, Except.pure], by simp⟩
    | cons v l ih =>
      intro acc hl
      cases hv : N.request v with
      | none =>
        obtain ⟨rs, h1, h2⟩ := ih acc (fun x hx => hl x (List.mem_cons_of_mem _ hx))
        refine ⟨rs, ?_, ?_⟩
        · rw [List.foldlM_cons, hv]
          exact h1
        · intro r
          rw [h2]
          simp [hv]
      | some w =>
        obtain ⟨_, _, _, a1, a2, a3⟩ := hreq v (hl v (by simp)) w hv
        obtain ⟨rs, h1, h2⟩ := ih (acc ++ [[.source, v, w, .sink]]) (fun x hx => hl x (List.mem_cons_of_mem _ hx))
        refine ⟨[.source, v, w, .sink] :: rs, ?_, ?_⟩
        · rw [List.foldlM_cons, hv]
          have hck : (if P.timeWindows then checkPickupDeliveryTimeWindows N [(.source, v), (v, w), (w, .sink)]
              else .ok ()) = (.ok () : Py Unit) := by
            split
            · unfold checkPickupDeliveryTimeWindows
              rw [forM_ok_iff]
              intro e he
              simp only [List.mem_cons, List.not_mem_nil, or_false] at he
              rcases he with rfl | rfl | rfl <;> simp [Net.hasEdge, a1, a2, a3, pure, Except.pure]
            · rfl
          simp only [hck, bind, Except.bind]
          rw [h1]
          simp
        · intro r
          rw [List.mem_cons, h2]
          constructor
          · rintro (rfl | ⟨x, hx, h⟩)
            · exact ⟨v, by simp, w, hv, rfl⟩
            · exact ⟨x, List.mem_cons_of_mem _ hx, h⟩
          · rintro ⟨x, hx, w', h, rfl⟩
            rcases List.mem_cons.1 hx with rfl | hx
            · rw [hv] at h; cases h; exact Or.inl rfl
            · exact Or.inr ⟨x, hx, w', h, rfl⟩
  obtain ⟨rs, h1, h2⟩ := key N.nodes [] (fun _ h => h)
  refine ⟨rs, ?_, ?_, ?_, ?_⟩
  · rw [List.nil_append] at h1
    have : requestRoutes N P.timeWindows = .ok rs := h1
    rw [this]
  · intro r hr
    obtain ⟨v, hv, w, hw, rfl⟩ := (h2 r).1 hr
    obtain ⟨a0, a1, a2, a3, a4, a5⟩ := hreq v hv w hw
    exact isSimpleRoute_routeOf (L := [v, w]) (by simp [a1, a2]) (by simp [a0]) (by simp [Along, routeOf, a3, a4, a5])
  · exact fun v hv w hw => (h2 _).2 ⟨v, hv, w, hw, rfl⟩
  · exact fun r hr => (h2 r).1 hr

/-- **C56**, columns: simple routes that can be carried become columns `1, 2, ...`, each drawing its route. -/
theorem C56_initial_columns (G : Net) (caps : List ℚ) (R : List (List Node)) (hK : CostsFor G 1)
    (hR : ∀ r ∈ R, IsSimpleRoute G r ∧ SomeCarries caps (load G r)) :
    ∃ cols : List Column, convertRoutes G caps R = .ok cols ∧ cols.length = R.length ∧
      ∀ (i : Nat) (r : List Node) (c : Column), R[i]? = some r → cols[i]? = some c →
        c.name = .num (i + 1) ∧ Draws c r ∧ c.cost = cost G 0 r ∧ FirstThatCarries caps (load G r) c.vehicleType := by
  have hmem : ∀ p ∈ R.zipIdx 1, p.1 ∈ R := fun p hp => List.fst_mem_of_mem_zipIdx hp
  have hconv : ∀ r ∈ R, ∀ id, ∃ k, firstType caps (load G r) = some k ∧ convertRoute G caps id r = .ok
      { name := .num id, nodes := graphNodes (consecutive r), edges := graphEdges (consecutive r),
        cost := cost G 0 r, vehicleType := k } := by
    intro r hr id
    obtain ⟨⟨⟨mid, rfl, _, hal⟩, _⟩, hc⟩ := hR r hr
    cases hf : firstType caps (load G (routeOf mid)) with
    | none =>
      rw [firstType_none] at hf
      rcases hc with h | ⟨c, hc, hle⟩
      · exact absurd h hf.1
      · exact absurd hle (not_le.2 (hf.2 c hc))
    | some k =>
      refine ⟨k, rfl, convertRoute_ok.2 ⟨?_, k, hf, rfl⟩⟩
      rw [along_iff] at hal ⊢
      exact fun u v h => ⟨hal u v h, hK u v (hal u v h)⟩
  obtain ⟨cols, hcols⟩ := py_mapM_total (f := fun p : List Node × Nat => convertRoute G caps p.2 p.1)
    (l := R.zipIdx 1) (fun p hp => by
      obtain ⟨k, _, h⟩ := hconv p.1 (hmem p hp) p.2
      exact ⟨_, h⟩)
  have hall := py_mapM_ok.1 hcols
  refine ⟨cols, hcols, by simpa using hall.length_eq.symm, ?_⟩
  intro i r c hi hc
  have hr : r ∈ R := List.mem_of_getElem? hi
  have hg : (R.zipIdx 1)[i]? = some (r, 1 + i) := by simp [List.getElem?_zipIdx, hi]
  obtain ⟨k, hk, hck⟩ := hconv r hr (1 + i)
  have hri : i < (R.zipIdx 1).length := (List.getElem?_eq_some_iff.1 hg).1
  have hci : i < cols.length := (List.getElem?_eq_some_iff.1 hc).1
  have := hall.get hri hci
  rw [List.getElem?_eq_getElem hri] at hg
  rw [List.getElem?_eq_getElem hci] at hc
  simp only [List.get_eq_getElem, Option.some.inj hg, Option.some.inj hc] at this
  rw [hck] at this
  cases this
  obtain ⟨⟨⟨mid, rfl, _, _⟩, hnd⟩, _⟩ := hR r hr
  refine ⟨by simp [Nat.add_comm], ⟨?_, ?_, by simp⟩, rfl, ?_⟩
  · refine (List.perm_ext_iff_of_nodup (nodup_graphNodes _) hnd).2 (fun v => ?_)
    exact mem_graphNodes_consecutive (by simp [routeOf]) v
  · exact graphEdges_perm (consecutive_nodup hnd)
  · simpa [FirstThatCarries] using firstType_some.1 hk

/-- A problem on the two customers of `exC11`, with capacity 4 and at most 2 stops. -/
private def exC56 (tw pd : Bool) : Vrp where
  G := exC11.toDiGraph
  loadCapacity := .many [.int 4]
  numStops := .int 2
  timeWindows := tw
  pickupDelivery := pd

/-- The hypotheses of C56 hold: plain (Clarke & Wright and greedy) and with time windows (round trips). -/
example : (WellFormed exC11 ∧ DepotConnected exC11 ∧ CostsFor exC11 1 ∧ Node.sink ∈ exC11.succ .source ∧
    (exC11.demand .source = 0 ∧ exC11.demand .sink = 0) ∧ (exC11.service .source = 0 ∧ exC11.service .sink = 0)) ∧
    (∃ o : ℚ → CWOracle, ∀ a, (o a).Valid) ∧
    (∀ c ∈ capacities (exC56 false false).loadCapacity.toList, 0 < c) ∧ (exC56 false false).plain = true ∧
    (capacities (exC56 false false).loadCapacity.toList).length ≤ 1 ∧
    (∀ v ∈ exC11.customers, SomeCarries (capacities (exC56 false false).loadCapacity.toList) (exC11.demand v)) ∧
    (exC56 true false).plain = false ∧
    (match (exC56 true false).chooseInitial exC11 (fun _ => ⟨id, fun _ => []⟩) 0 with
      | .ok rs => decide (rs = some [[.source, .cust 1, .sink], [.source, .cust 2, .sink]])
      | .error _ => false) = true := by
  refine ⟨⟨exC11_wf, exC11_depot, exC11_costs, by decide, by decide +kernel, by decide +kernel⟩, ?_, by decide +kernel,
    by decide +kernel, by decide +kernel, ?_, by decide +kernel, by decide +kernel⟩
  · obtain ⟨o, ho⟩ := CWOracle.exists_valid
    exact ⟨fun _ => o, fun _ => ho⟩
  · intro v hv
    refine Or.inr ⟨4, by decide +kernel, ?_⟩
    have : v = .cust 1 ∨ v = .cust 2 := by
      have := mem_customers.1 hv
      simp only [exC11, List.mem_cons, List.not_mem_nil, or_false] at this
      tauto
    rcases this with rfl | rfl <;> decide +kernel

/-- Customer 1 is picked up and delivered at customer 2: one route. -/
example : (match (exC56 true true).chooseInitial
      { exC11 with request := fun v => if v = .cust 1 then some (.cust 2) else none } (fun _ => ⟨id, fun _ => []⟩) 0 with
    | .ok rs => decide (rs = some [[.source, .cust 1, .cust 2, .sink]])
    | .error _ => false) = true := by decide +kernel

end Vrpy
