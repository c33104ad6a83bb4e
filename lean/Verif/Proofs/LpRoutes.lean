import Verif.Proofs.LpRun
import Verif.Props.EndToEnd

/-!
# Problems whose LP pricing only yields routes: ranks, or time windows and travel that takes time
-/

namespace Vrpy

open Spec PricingLP

/-- Ranks are used, or there are time windows and going from a customer to another takes time. -/
def Spec.TimedOrRanked (q : PricingLP) : Prop :=
  q.ranked = true ∨ (q.timeWindows = true ∧
    ∀ u v, v ∈ q.G.succ u → u ≠ .source → v ≠ .sink → 0 < q.G.service u + q.G.time u v)

/-- The chosen arcs of a feasible point are then those of one route. -/
theorem timed_route {q : PricingLP} {cap : ℚ} {p : PVar → ℚ} (hG : WellFormed q.G) (ht : TimedOrRanked q)
    (h : (q.lp cap).Feasible p) :
    ∃ mid, mid ≠ [] ∧ IsSimpleRoute q.G (routeOf mid) ∧ (q.chosen p).Perm (consecutive (routeOf mid)) := by
  rcases ht with ht | ⟨htw, hpos⟩
  · exact ranked_route h hG ht
  have hf := flowPoint h
  obtain ⟨mid, R, hr, hperm, hbal, _, hR⟩ := route_and_cycles hG h
  have hnil : R = [] := by
    refine hbal.eq_nil_of_rank (fun v => p (.t v)) ?_
    rintro ⟨i, j⟩ he
    have hij := hR _ he
    have hi : i ≠ .source := by
      rintro rfl
      have h1 := outDeg_pos he
      rw [← hbal] at h1
      obtain ⟨u, hu⟩ := inDeg_pos_iff.1 h1
      exact hG.no_into_source u (hR _ hu)
    have hj : j ≠ .sink := by
      rintro rfl
      have h1 := inDeg_pos he
      rw [hbal] at h1
      obtain ⟨u, hu⟩ := outDeg_pos_iff.1 h1
      have h2 := hR _ hu
      simp only [hG.no_out_of_sink] at h2
      cases h2
    have hc : (i, j) ∈ q.chosen p := hperm.mem_iff.2 (List.mem_append_right _ he)
    have he' := (mem_chosen.1 hc).1
    have := h.constrs ⟨[(1, .t i), (-1, .t j), (q.G.upper .sink, .x i j)], .le,
        q.G.upper .sink - q.G.service i - q.G.time i j⟩ (by
      have : (⟨[(1, .t i), (-1, .t j), (q.G.upper .sink, .x i j)], .le,
          q.G.upper .sink - q.G.service i - q.G.time i j⟩ : Constr PVar) ∈ q.timeConstrs := by
        simp only [timeConstrs, List.mem_append]
        left; left
        exact List.mem_map.2 ⟨(i, j), he', rfl⟩
      simp [lp, htw, this])
    simp only [Constr.Holds, LinExpr.eval, List.map_cons, List.map_nil, List.sum_cons, List.sum_nil] at this
    have hv := hf.binary.value he'
    simp only [if_pos hc] at hv
    rw [hv] at this
    have := hpos i j hij hi hj
    show p (.t i) < p (.t j)
    linarith
  subst hnil
  rw [List.append_nil] at hperm
  refine ⟨mid, ?_, hr, hperm⟩
  rintro rfl
  have h2 := hf.two
  have h3 := hf.binary.sum (fun _ => 1)
  simp only [one_mul] at h3
  rw [h3] at h2
  have h4 : (q.chosen p).length = 1 := by
    rw [hperm.length_eq]; rfl
  simp [h4] at h2

/-- What LP pricing adds is a column for a route with the property `F`, if the routes in the feasible points have it. -/
theorem price_lp {cfg : SolveCfg} {env : Env} {d : Duals} {F : Nat → List Node → Prop} (hcspy : cfg.cspy = false)
    (hgreedy : Solve.usesGreedy cfg = false) (hG : WellFormed cfg.M.G) (hsound : ∀ t, SolverSound (env.pricing t))
    (hpaths : ∀ t, PathsOk (env.paths t))
    (htimed : ∀ q : PricingLP, IsSubgraph q.G cfg.M.G → q.timeWindows = cfg.timeWindows →
      q.pickupDelivery = cfg.pickupDelivery → TimedOrRanked q)
    (hF : ∀ (q : PricingLP) cap p mid, IsSubgraph q.G cfg.M.G → WellFormed q.G →
      (q.pickupDelivery = true → ∀ r ∈ q.requests, r.2 ∈ q.G.nodes) → q.caps = cfg.caps →
      q.numStops = cfg.numStops → q.duration = cfg.duration → q.timeWindows = cfg.timeWindows →
      q.pickupDelivery = cfg.pickupDelivery → q.distributionCollection = cfg.distributionCollection →
      (q.caps ≠ [] ∨ q.pickupDelivery = true ∨ q.distributionCollection = true → q.caps[q.vehicleType]? = some cap) →
      (q.lp cap).Feasible p → IsSimpleRoute q.G (routeOf mid) → mid ≠ [] →
      (q.chosen p).Perm (consecutive (routeOf mid)) → F q.vehicleType (routeOf mid)) :
    Solve.PriceOk cfg env d (ColumnFor cfg.M.G cfg.K F) := by
  constructor
  · intro k hk t route cols s cols' _ h c hc
    unfold Solve.price at h
    cases hs : subProblem cfg.M.G d k route (env.paths t) s with
    | error e => simp [hs] at h
    | ok wS =>
      obtain ⟨w, S⟩ := wS
      simp only [hs, hcspy, Bool.false_eq_true, if_false] at h
      have hsub := C15_subgraph hs
      have hwf := subProblem_wf hG (hpaths t) hs
      generalize hq : ({ G := S.G, weight := w, vehicleType := k, caps := cfg.caps, numStops := cfg.numStops,
                         duration := cfg.duration, timeWindows := cfg.timeWindows, pickupDelivery := cfg.pickupDelivery,
                         distributionCollection := cfg.distributionCollection, negCycle := env.negCycle cfg.M.G w } :
                           PricingLP) = q at h
      have hqG : q.G = S.G := by rw [← hq]
      have hqk : q.vehicleType = k := by rw [← hq]
      rw [← hqG] at hwf hsub
      have ht := htimed q hsub (by rw [← hq]) (by rw [← hq])
      obtain ⟨c', r, rfl, _, htype, henc, ⟨hsimple, hFr⟩, _⟩ := solve_column
        (A := fun r => IsSimpleRoute q.G r ∧ F q.vehicleType r) (hsound t) (by
        intro prob hform hfeas _ _
        obtain ⟨cap, rfl, hcap⟩ := formulate_inv hform
        obtain ⟨mid, hne, hr, hperm⟩ := timed_route hwf ht hfeas
        have hobj := objective_split hfeas (r := routeOf mid) (R := []) (by rw [List.append_nil]; exact hperm)
        exact ⟨routeOf mid, hr, hperm, by rw [hobj]; simp, hr, hF q cap _ mid hsub hwf (requests_present hform) (by rw [← hq]) (by rw [← hq])
          (by rw [← hq]) (by rw [← hq]) (by rw [← hq]) (by rw [← hq]) hcap hfeas hr hne hperm⟩) h
      have hpath := PricingLP.solve_no_path h
      rw [List.mem_append, List.mem_singleton] at hc
      rcases hc with hc | rfl
      · exact Or.inl hc
      right
      refine ⟨by rw [htype, hqk]; exact hk, Or.inr ⟨r, isSimpleRoute_mono hsub.nodes hsub.arcs hsimple,
        ⟨henc.nodes, henc.edges, fun p hp => by rw [hpath] at hp; cases hp⟩, by rw [htype]; exact hFr⟩⟩
  · intro k hk st st' h c hc
    unfold Solve.greedyPhase at h
    rw [hgreedy] at h
    simp only [Bool.false_eq_true, if_false, pure, Except.pure, Except.ok.injEq] at h
    subst h
    exact Or.inl hc

end Vrpy
