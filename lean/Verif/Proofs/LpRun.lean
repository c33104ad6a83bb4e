import Verif.Proofs.EndToEnd
import Verif.Props.PricingLP
import Verif.Proofs.Reports

/-!
# Columns found by LP pricing during column generation
-/

namespace Vrpy

open Spec

/-- A column of LP pricing has no attribute `path`. -/
theorem PricingLP.solve_no_path {q : PricingLP} {run timeUp : Bool} {keys : List Node} {solver : LP PVar → PricingLP.Answer}
    {cols : List Column} {c : Column} (h : q.solve run timeUp keys solver cols = .ok (cols ++ [c], true)) :
    c.path = none := by
  unfold solve at h
  split at h
  · simp at h
  · split at h
    · cases h
    · split at h
      · simp at h
      · split at h
        · split at h
          · cases h
          · rename_i cols2 hadd
            simp only [Except.ok.injEq, Prod.mk.injEq, and_true] at h
            subst h
            unfold addRoute at hadd
            split at hadd
            · cases hadd
            · split at hadd
              · cases hadd
              · simp only [Except.ok.injEq, List.append_cancel_left_eq, List.cons.injEq, and_true] at hadd
                rw [← hadd]
        · simp at h

theorem Spec.PositiveCycles.sub {G H : Net} {w : Node → Node → ℚ} (hs : ∀ u v, v ∈ H.succ u → v ∈ G.succ u)
    (h : PositiveCycles G w) : PositiveCycles H w := by
  intro a t hn ha
  refine h a t hn ?_
  rw [along_iff] at ha ⊢
  exact fun u v huv => hs u v (ha u v huv)

/-- Conditions under which LP pricing only yields routes: ranks are used, or cycles cost something and the direct trip
pays nothing. -/
def Spec.NoCycles (G : Net) (timeWindows : Bool) (solver : LP PVar → PricingLP.Answer) (negCycle : Bool) (w : Node → Node → ℚ) : Prop :=
  negCycle = true ∨ SolverExact solver ∧ Nonnegative G timeWindows ∧ PositiveCycles G w ∧
    (Node.sink ∈ G.succ .source → 0 ≤ w .source .sink)

theorem onTime_congr {G H : Net} (h1 : H.service = G.service) (h2 : H.time = G.time) (h3 : H.lower = G.lower)
    (h4 : H.upper = G.upper) (r : List Node) : OnTime H r ↔ OnTime G r := by
  have key : ∀ (l : List Node) (t : ℚ) (u : Node), arrivalsFrom H t u l = arrivalsFrom G t u l := by
    intro l
    induction l with
    | nil => intro t u; rfl
    | cons v l ih => intro t u; simp only [arrivalsFrom, h1, h2, h3, ih]
  cases r with
  | nil => exact Iff.rfl
  | cons u l => simp only [OnTime, h3, h4, key]

namespace Solve

variable {cfg : SolveCfg} {env : Env}

/-- What LP pricing adds is a column for a route with negative reduced cost. -/
theorem lp_column {d : Duals} {t k : Nat} {route : Option ColName} {s : Strategy} {cols cols' : List Column}
    (hcspy : cfg.cspy = false) (hG : WellFormed cfg.M.G) (hdem : cfg.M.G.demand .source = 0)
    (hser : cfg.M.G.service .sink = 0) (hpd : cfg.pickupDelivery = false)
    (hdc : cfg.distributionCollection = true → CollectsGoods cfg.M.G)
    (hpaths : PathsOk (env.paths t)) (hsound : SolverSound (env.pricing t))
    (hcyc : ∀ w, reducedCosts cfg.M.G d k route = .ok w →
      NoCycles cfg.M.G cfg.timeWindows (env.pricing t) (env.negCycle cfg.M.G w) w)
    (h : price cfg env t d k route cols s = .ok (cols', true)) :
    ∃ w c r, reducedCosts cfg.M.G d k route = .ok w ∧ cols' = cols ++ [c] ∧ c.vehicleType = k ∧
      Encodes cfg.M.G c r ∧ Draws c r ∧ IsSimpleRoute cfg.M.G r ∧ stops r ≠ [] ∧
      WithinStops cfg.numStops (stops r).length ∧ WithinCapacity cfg.caps k (load cfg.M.G r) ∧
      Within cfg.duration (duration cfg.M.G r) ∧ (cfg.timeWindows = true → OnTime cfg.M.G r) ∧
      (cfg.distributionCollection = true → ∃ cap, cfg.caps[k]? = some cap ∧ GoodsWithin cfg.M.G cap r) ∧
      legSum w r < -(1 / 1000) := by
  unfold price at h
  cases hs : subProblem cfg.M.G d k route (env.paths t) s with
  | error e => simp [hs] at h
  | ok wS =>
    obtain ⟨w, S⟩ := wS
    simp only [hs, hcspy, Bool.false_eq_true, if_false] at h
    have hsub := C15_subgraph hs
    have hwf := subProblem_wf hG hpaths hs
    have hw : reducedCosts cfg.M.G d k route = .ok w := by
      unfold subProblem at hs
      cases hw : reducedCosts cfg.M.G d k route with
      | error e => simp [hw] at hs
      | ok w' =>
        simp only [hw] at hs
        cases s with
        | exact => simp only [Except.ok.injEq, Prod.mk.injEq] at hs; rw [hs.1]
        | bestEdges1 alpha =>
          simp only at hs
          split at hs
          · cases hs
          · simp only [Except.ok.injEq, Prod.mk.injEq] at hs; rw [hs.1]
        | bestEdges2 ratio => simp only [Except.ok.injEq, Prod.mk.injEq] at hs; rw [hs.1]
        | bestPaths beta =>
          simp only at hs
          split at hs
          · cases hs
          · simp only [Except.ok.injEq, Prod.mk.injEq] at hs; rw [hs.1]
    generalize hq : ({ G := S.G, weight := w, vehicleType := k, caps := cfg.caps, numStops := cfg.numStops,
                       duration := cfg.duration, timeWindows := cfg.timeWindows, pickupDelivery := cfg.pickupDelivery,
                       distributionCollection := cfg.distributionCollection, negCycle := env.negCycle cfg.M.G w } :
                         PricingLP) = q at h
    have hqG : q.G = S.G := by rw [← hq]
    have hqw : q.weight = w := by rw [← hq]
    have hqk : q.vehicleType = k := by rw [← hq]
    have hqneg : q.negCycle = env.negCycle cfg.M.G w := by rw [← hq]
    have hqpd : q.pickupDelivery = false := by rw [← hq]; exact hpd
    have hqdc : q.distributionCollection = true → CollectsGoods q.G := by
      intro hb
      have hb' : cfg.distributionCollection = true := by rw [← hq] at hb; exact hb
      obtain ⟨g1, g2, g3⟩ := hdc hb'
      rw [hqG]
      exact ⟨fun v hv => by rw [hsub.collect]; exact g1 v (hsub.nodes v hv), by rw [hsub.collect]; exact g2,
        by rw [hsub.demand]; exact g3⟩
    have hqd : q.G.demand .source = 0 := by rw [hqG, hsub.demand]; exact hdem
    have hqs : q.G.service .sink = 0 := by rw [hqG, hsub.service]; exact hser
    rw [← hqG] at hwf
    obtain ⟨c, r, rfl, _, htype, henc, ⟨hadm, hgoods⟩, hneg⟩ := Vrpy.solve_column
      (A := fun r => Admissible q r ∧ (q.distributionCollection = true → ∃ cap, q.caps[q.vehicleType]? = some cap ∧
        GoodsWithin q.G cap r)) hsound (by
      intro prob hform hfeas hobj hneg
      rcases hcyc w hw with hn | ⟨hexact, hnn, hpos, hdir⟩
      · obtain ⟨r, h1, h2, h3⟩ := C16_feasible_points hwf hqd hqs (Or.inl (by rw [hqneg]; exact hn)) hform hfeas
        refine ⟨r, h1.simple, chosen_of_selects hwf h1.simple h2, by rw [h3], h1, fun hb => ?_⟩
        obtain ⟨_, g2, g3⟩ := hqdc hb
        obtain ⟨cap, rfl, hcap⟩ := PricingLP.formulate_inv hform
        have hr := h1.simple
        obtain ⟨mid, rfl, _⟩ := id hr.1
        exact ⟨cap, hcap (Or.inr (Or.inr hb)), PricingLP.dc_of_feasible hwf g3 g2 hb hfeas hr (chosen_of_selects hwf hr h2)⟩
      · obtain ⟨y, hy⟩ := optimal_exists hform hfeas
        obtain ⟨_, hopt, _⟩ := hexact prob y hy
        have hnn' : Nonnegative q.G q.timeWindows := by
          rw [hqG, show q.timeWindows = cfg.timeWindows by rw [← hq]]
          refine ⟨fun v hv => ?_, fun u v huv => ?_, ?_⟩
          · rw [hsub.demand]; exact hnn.demand v (hsub.nodes v hv)
          · rw [hsub.time, hsub.service]; exact hnn.time u v (hsub.arcs u v huv)
          · rw [hsub.upper]; exact hnn.horizon
        obtain ⟨r, h1, h2, h3, h4⟩ := C17_optimal_points_partial hwf hqd hqs hnn' hqpd hqdc
          (by rw [hqG, hqw]; exact hpos.sub hsub.arcs)
          (by rw [hqG, hqw]; exact fun hm => hdir (hsub.arcs _ _ hm)) hform hopt (by
            refine lt_trans hneg ?_
            norm_num)
        exact ⟨r, h1.simple, chosen_of_selects hwf h1.simple h2, by rw [h3], h1, h4⟩) h
    have hpath := PricingLP.solve_no_path h
    rw [hqG] at henc
    rw [hqk] at htype
    have hadmG := hadm.simple
    have h1 := hadm.stops
    have h2 := hadm.load
    have h3 := hadm.duration
    have h4 := hadm.onTime
    rw [← hq] at hadmG h1 h2 h3 h4
    rw [hqw] at hneg
    have hcost : Spec.cost S.G c.vehicleType r = Spec.cost cfg.M.G c.vehicleType r := by
      simp only [Spec.cost, hsub.cost]
    refine ⟨w, c, r, hw, rfl, htype, ⟨henc.nodes, henc.edges, by rw [← hcost]; exact henc.cost⟩,
      ⟨henc.nodes, henc.edges, fun p hp => by rw [hpath] at hp; cases hp⟩,
      isSimpleRoute_mono hsub.nodes hsub.arcs hadmG, hadm.nonempty, h1, ?_, ?_, ?_, ?_, hneg⟩
    · rw [← load_congr hsub.demand]; exact h2
    · have : Spec.duration S.G r = Spec.duration cfg.M.G r := by
        simp only [Spec.duration, Spec.travel, hsub.service, hsub.time]
      rw [← this]; exact h3
    · intro htw
      exact (onTime_congr hsub.service hsub.time hsub.lower hsub.upper r).1 (h4 htw)
    · intro hb
      rw [← hq] at hgoods
      obtain ⟨cap, g1, g2⟩ := hgoods hb
      refine ⟨cap, g1, fun pre post hpp e1 e2 => ?_⟩
      have := g2 pre post hpp e1 e2
      rw [load_congr hsub.demand, hsub.collect] at this
      exact this

/-- LP pricing (and the randomised greedy pricing before it) yields routes. -/
theorem lp_price_good {d : Duals} (hcspy : cfg.cspy = false) (hG : WellFormed cfg.M.G)
    (hdem : cfg.M.G.demand .source = 0 ∧ cfg.M.G.demand .sink = 0) (hser : cfg.M.G.service .sink = 0)
    (hpd : cfg.pickupDelivery = false) (hdc : cfg.distributionCollection = true → CollectsGoods cfg.M.G)
    (hcpos : ∀ c ∈ cfg.caps, 0 < c) (hpaths : ∀ t, PathsOk (env.paths t)) (hsound : ∀ t, SolverSound (env.pricing t))
    (hcyc : ∀ t k route w, reducedCosts cfg.M.G d k route = .ok w →
      NoCycles cfg.M.G cfg.timeWindows (env.pricing t) (env.negCycle cfg.M.G w) w) :
    PriceOk cfg env d (RouteColumn cfg.M.G cfg.K cfg.caps cfg.numStops) := by
  refine ⟨?_, greedy_good hG hdem hcpos⟩
  intro k hk t route cols s cols' _ h c hc
  obtain ⟨w, c', r, _, rfl, htype, _, hdraw, hsimple, _, h1, h2, _⟩ :=
    lp_column hcspy hG hdem.1 hser hpd hdc (hpaths t) (hsound t) (hcyc t k route) h
  rw [List.mem_append, List.mem_singleton] at hc
  rcases hc with hc | rfl
  · exact Or.inl hc
  · exact Or.inr ⟨by rw [htype]; exact hk, r, hsimple, hdraw, h1, by rw [htype]; exact h2⟩

end Solve

/-- The direct trip has no negative reduced cost if it costs nothing (or more), the dual values of the span constraints are not
positive, and those of the fleet constraints do not exceed its cost. -/
theorem direct_weight {M : Master} {cols : List Column} {a : Master.Answer} {k : Nat} {route : Option ColName}
    {w : Node → Node → ℚ} (hG : WellFormed M.G) (hspan : M.globalSpan = true → ∀ n, a.spanDual n ≤ 0)
    (hcost : ∀ k, 0 ≤ (M.G.cost .source .sink).getD k 0)
    (hfleet : ∀ k < M.numVehicles.length, k < (M.G.cost .source .sink).length →
      ∀ x, 0 ≤ x → (x = 1 ∨ M.globalSpan = true ∧ ∃ n, x = -a.spanDual n) → a.fleetDual k ≤ x * (M.G.cost .source .sink).getD k 0)
    (h : reducedCosts M.G (M.duals cols a) k route = .ok w) (hs : Node.sink ∈ M.G.succ .source) :
    0 ≤ w .source .sink := by
  have he := reducedCosts_inv h _ _ ((Net.mem_edges hG _ _).2 hs)
  have hvis : (M.duals cols a).visit.map Prod.fst = M.G.customers := by simp [Master.duals, Function.comp_def]
  obtain ⟨_, hlen, x, hx, hk, hw⟩ := edgeWeight_inv (by rw [hvis]; exact hG.nodes_nodup.filter _) he
  have hx1 : x = 1 ∨ M.globalSpan = true ∧ ∃ n, x = -a.spanDual n := by
    cases route with
    | none =>
      have := hx 1
      simp only [spanWeight, mul_one, Except.ok.injEq] at this
      exact Or.inl this.symm
    | some n =>
      right
      have := hx 1
      simp only [spanWeight, Master.duals] at this
      split at this
      · cases this
      · rename_i p hp
        simp only [one_mul, mul_one, Except.ok.injEq] at this
        cases hsp : M.globalSpan with
        | false => simp [hsp, dget] at hp
        | true =>
          rw [hsp, if_pos rfl] at hp
          obtain ⟨c, _, hcp⟩ := List.mem_map.1 (mem_of_dget hp)
          refine ⟨rfl, n, ?_⟩
          simp only [Prod.mk.injEq] at hcp
          rw [← this, ← hcp.2, hcp.1]
  have hx0 : 0 ≤ x := by
    rcases hx1 with rfl | ⟨hsp, n, rfl⟩
    · exact zero_le_one
    · have := hspan hsp n
      linarith
  have hdual : (M.duals cols a).dual .source = 0 := by
    unfold Duals.dual
    rw [show dget (M.duals cols a).visit .source = none from (dget_eq_none _ _).2 (by
      rw [hvis]
      exact fun h => (mem_customers.1 h).2.1 rfl)]
    rfl
  have hf : (M.duals cols a).fleetDual k ≤ x * (M.G.cost .source .sink).getD k 0 := by
    unfold Duals.fleetDual
    by_cases hc : M.numVehicles ≠ [] ∧ M.periodic = false
    · have hd : (M.duals cols a).fleet = some ((List.range M.numVehicles.length).map a.fleetDual) := by
        simp only [Master.duals, if_pos hc]
      have hk' := hk rfl _ hd
      rw [hd]
      simp only [List.length_map, List.length_range] at hk'
      have := hfleet k hk' hlen x hx0 hx1
      simpa [List.getD_eq_getElem?_getD, hk'] using this
    · have hd : (M.duals cols a).fleet = none := by simp only [Master.duals, if_neg hc]
      rw [hd]
      exact mul_nonneg hx0 (hcost k)
  rw [hw, hdual, if_pos rfl]
  linarith

end Vrpy
