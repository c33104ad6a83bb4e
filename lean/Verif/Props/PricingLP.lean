import Verif.Proofs.GoodsPoint
import Verif.Model.Prune
import Mathlib.Data.Set.Finite.Lemmas
import Mathlib.Data.List.Sublists

/-!
# C16, C17, C18, C50, C51: the pricing problem as a mixed integer program
-/

namespace Vrpy

open Spec PricingLP

/-- The flow variables of the point `p` describe exactly the route `r`. -/
def Spec.Selects (G : Net) (p : PVar → ℚ) (r : List Node) : Prop :=
  ∀ u v, v ∈ G.succ u → p (.x u v) = if (u, v) ∈ consecutive r then 1 else 0

/-- A route with at least one customer that respects the limits given to the pricing problem. -/
structure Spec.Admissible (q : PricingLP) (r : List Node) : Prop where
  simple : IsSimpleRoute q.G r
  nonempty : stops r ≠ []
  stops : WithinStops q.numStops (stops r).length
  load : WithinCapacity q.caps q.vehicleType (load q.G r)
  duration : Within q.duration (duration q.G r)
  onTime : q.timeWindows = true → OnTime q.G r

/-- What a solver promises: if it reports an objective value and does not report infeasibility, its point is feasible
and has that value. -/
def Spec.SolverSound (solver : LP PVar → PricingLP.Answer) : Prop :=
  ∀ prob z, (solver prob).objective = some z → (solver prob).infeasible = false →
    prob.Feasible (solver prob).point ∧ prob.obj.eval (solver prob).point = z

/-- What an exact solver promises in addition: it finds an optimal point of every problem that has one. -/
def Spec.SolverExact (solver : LP PVar → PricingLP.Answer) : Prop :=
  ∀ prob x, prob.Optimal x → (solver prob).infeasible = false ∧ prob.Optimal (solver prob).point ∧
    (solver prob).objective = some (prob.obj.eval (solver prob).point)

/-- There is such a solver. -/
theorem exactSolver_exists : ∃ solver, SolverExact solver := by
  classical
  refine ⟨fun prob => if h : ∃ x, prob.Optimal x then ⟨some (prob.obj.eval h.choose), false, h.choose⟩
    else ⟨none, true, fun _ => 0⟩, ?_⟩
  intro prob x hx
  have h : ∃ x, prob.Optimal x := ⟨x, hx⟩
  simp only [dif_pos h]
  exact ⟨trivial, h.choose_spec, trivial⟩

/-- A pricing problem with a feasible point has an optimal one: its objective takes finitely many values. -/
theorem optimal_exists {q : PricingLP} {prob : LP PVar} {x : PVar → ℚ} (hform : q.formulate = .ok prob)
    (hx : prob.Feasible x) : ∃ y, prob.Optimal y := by
  obtain ⟨cap, rfl, _⟩ := formulate_inv hform
  have hval : ∀ p, (q.lp cap).Feasible p →
      (q.lp cap).obj.eval p ∈ (q.G.edges.sublists.map (fun S => (S.map (fun e => q.weight e.1 e.2)).sum)) := by
    intro p hp
    refine List.mem_map.2 ⟨q.chosen p, List.mem_sublists.2 List.filter_sublist, ?_⟩
    have := (flowPoint hp).binary.sum (fun e => q.weight e.1 e.2)
    simp only [lp, objective]
    rw [eval_map (x := p) q.G.edges (fun e => q.weight e.1 e.2) (fun e => PVar.x e.1 e.2), this]
  have hfin : {z | ∃ p, (q.lp cap).Feasible p ∧ (q.lp cap).obj.eval p = z}.Finite := by
    refine (List.finite_toSet (q.G.edges.sublists.map (fun S => (S.map (fun e => q.weight e.1 e.2)).sum))).subset ?_
    rintro z ⟨p, hp, rfl⟩
    exact hval p hp
  obtain ⟨z, ⟨p, hp, rfl⟩, hmin⟩ := Set.exists_min_image _ id hfin ⟨_, x, hx, rfl⟩
  exact ⟨p, hp, fun p' hp' => hmin _ ⟨p', hp', rfl⟩⟩

theorem admissible_of {q : PricingLP} {mid : List Node} (hs : q.G.service .sink = 0)
    (hr : IsSimpleRoute q.G (routeOf mid)) (hne : mid ≠ [])
    (h1 : WithinStops q.numStops mid.length) (h2 : WithinCapacity q.caps q.vehicleType (load q.G (routeOf mid)))
    (h3 : Within q.duration (Spec.duration q.G (routeOf mid) - q.G.service .sink))
    (h4 : q.timeWindows = true → OnTime q.G (routeOf mid)) : Admissible q (routeOf mid) := by
  have hmid := route_customers hr.1
  rw [hs, sub_zero] at h3
  exact ⟨hr, by rw [stops_routeOf hmid]; exact hne, by rw [stops_routeOf hmid]; exact h1, h2, h3, h4⟩

/-- **C16.** With ranks (elementarity constraints), every feasible point of the pricing problem is exactly one simple
route with at least one customer that respects the number of stops, the load, the duration (travel plus service) and, if
they are on, the time windows; the objective is the sum of the reduced costs of its legs. -/
theorem C16_feasible_points {q : PricingLP} {prob : LP PVar} {p : PVar → ℚ} (hG : WellFormed q.G)
    (hd : q.G.demand .source = 0) (hs : q.G.service .sink = 0) (helem : q.negCycle = true ∨ q.pickupDelivery = true)
    (hform : q.formulate = .ok prob) (hp : prob.Feasible p) :
    ∃ r, Admissible q r ∧ Selects q.G p r ∧ prob.obj.eval p = legSum q.weight r := by
  obtain ⟨cap, rfl, hcap⟩ := formulate_inv hform
  have hf := flowPoint hp
  obtain ⟨mid, hne, hr, hperm⟩ := ranked_route hp hG (by simpa [ranked] using helem)
  have hmid := route_customers hr.1
  obtain ⟨h1, h2, h3⟩ := limits_of_feasible hd hs (fun h => hcap (Or.inl h)) hp hmid hperm
  refine ⟨routeOf mid, ⟨hr, by rw [stops_routeOf hmid]; exact hne, h1, h2, h3, fun htw =>
    onTime_of_feasible hG hp htw hr hperm⟩, ?_, ?_⟩
  · intro u v huv
    have := hf.binary.value ((Net.mem_edges hG u v).2 huv)
    simp only [hperm.mem_iff] at this
    exact this
  · have := objective_split hp (r := routeOf mid) (R := []) (by rw [List.append_nil]; exact hperm)
    simpa using this

theorem chosen_of_selects {q : PricingLP} {p : PVar → ℚ} {r : List Node} (hG : WellFormed q.G)
    (hr : IsSimpleRoute q.G r) (h : Selects q.G p r) : (q.chosen p).Perm (consecutive r) := by
  refine (List.perm_ext_iff_of_nodup ((net_edges_nodup hG).filter _) (consecutive_nodup hr.2)).2 ?_
  rintro ⟨u, v⟩
  refine mem_chosen.trans ?_
  constructor
  · rintro ⟨h1, h2⟩
    by_contra hc
    rw [h u v ((Net.mem_edges hG u v).1 h1), if_neg hc] at h2
    norm_num at h2
  · intro hc
    obtain ⟨_, _, _, h1⟩ := hr.1
    have hs := (along_iff _ _).1 h1 u v hc
    exact ⟨(Net.mem_edges hG u v).2 hs, by rw [h u v hs, if_pos hc]; norm_num⟩

/-- The result of `solve`, if the selected edges are known to be those of a route. -/
theorem solve_column {q : PricingLP} {A : List Node → Prop} {run timeUp : Bool} {keys : List Node} {solver : LP PVar → PricingLP.Answer}
    {cols cols' : List Column} (hsound : SolverSound solver)
    (hroute : ∀ prob, q.formulate = .ok prob → prob.Feasible (solver prob).point →
      (solver prob).objective = some (prob.obj.eval (solver prob).point) →
      prob.obj.eval (solver prob).point < -(1 / 1000) →
      ∃ r, IsSimpleRoute q.G r ∧ (q.chosen (solver prob).point).Perm (consecutive r) ∧ legSum q.weight r ≤
        prob.obj.eval (solver prob).point ∧ A r)
    (h : q.solve run timeUp keys solver cols = .ok (cols', true)) :
    ∃ c r, cols' = cols ++ [c] ∧ c.name = .num (cols.length + 1) ∧ c.vehicleType = q.vehicleType ∧
      Encodes q.G c r ∧ A r ∧ legSum q.weight r < -(1 / 1000) := by
  unfold solve at h
  split at h
  · cases h
  · split at h
    · cases h
    · rename_i prob hform
      split at h
      · cases h
      · rename_i z hz
        split at h
        · rename_i hcond
          obtain ⟨hneg, hinf⟩ := hcond
          obtain ⟨hfeas, hval⟩ := hsound prob z hz hinf
          rw [← hval] at hneg hz
          obtain ⟨r, hr, hperm, hle, hadm⟩ := hroute prob hform hfeas hz hneg
          split at h
          · cases h
          · rename_i cols2 hadd
            simp only [Except.ok.injEq, Prod.mk.injEq, and_true] at h
            subst h
            unfold addRoute at hadd
            split at hadd
            · cases hadd
            · rename_i c hc
              split at hadd
              · cases hadd
              · simp only [Except.ok.injEq] at hadd
                refine ⟨_, r, hadd.symm, rfl, rfl, ?_, hadm, lt_of_le_of_lt hle hneg⟩
                refine encodes_of_perm hr.2 ?_ hperm rfl rfl hc
                obtain ⟨mid, rfl, _⟩ := hr.1
                simp [routeOf]
        · cases h

/-- **C16**, for the columns: with ranks, a column added by LP pricing stands for one simple route that respects the
limits and has reduced cost below -0.001; its name is the number of columns. -/
theorem C16_columns {q : PricingLP} {run timeUp : Bool} {keys : List Node} {solver : LP PVar → PricingLP.Answer}
    {cols cols' : List Column} (hG : WellFormed q.G) (hd : q.G.demand .source = 0) (hs : q.G.service .sink = 0)
    (helem : q.negCycle = true ∨ q.pickupDelivery = true) (hsound : SolverSound solver)
    (h : q.solve run timeUp keys solver cols = .ok (cols', true)) :
    ∃ c r, cols' = cols ++ [c] ∧ c.name = .num (cols.length + 1) ∧ c.vehicleType = q.vehicleType ∧
      Encodes q.G c r ∧ Admissible q r ∧ legSum q.weight r < -(1 / 1000) := by
  refine solve_column hsound ?_ h
  intro prob hform hfeas _ _
  obtain ⟨r, h1, h2, h3⟩ := C16_feasible_points hG hd hs helem hform hfeas
  exact ⟨r, h1.simple, chosen_of_selects hG h1.simple h2, by rw [h3], h1⟩

/-- Pricing that reports no success leaves the columns alone. -/
theorem C16_no_column {q : PricingLP} {run timeUp : Bool} {keys : List Node} {solver : LP PVar → PricingLP.Answer}
    {cols cols' : List Column} (h : q.solve run timeUp keys solver cols = .ok (cols', false)) : cols' = cols := by
  unfold solve at h
  split at h
  · simp only [Except.ok.injEq, Prod.mk.injEq, and_true] at h; exact h.symm
  · split at h
    · cases h
    · split at h
      · simp only [Except.ok.injEq, Prod.mk.injEq, and_true] at h; exact h.symm
      · split at h
        · split at h
          · cases h
          · simp at h
        · simp only [Except.ok.injEq, Prod.mk.injEq, and_true] at h; exact h.symm

/-- Every cycle of the network has positive weight. -/
def Spec.PositiveCycles (G : Net) (w : Node → Node → ℚ) : Prop :=
  ∀ a t, (a :: t).Nodup → Along (fun u v => v ∈ G.succ u) (a :: t ++ [a]) → 0 < legSum w (a :: t ++ [a])

/-- No cycle of the network has negative weight (`not negative_edge_cycle(G)`). -/
def Spec.NoNegativeCycle (G : Net) (w : Node → Node → ℚ) : Prop :=
  ∀ a t, (a :: t).Nodup → Along (fun u v => v ∈ G.succ u) (a :: t ++ [a]) → 0 ≤ legSum w (a :: t ++ [a])

/-- What every vehicle routing instance is expected to satisfy for C17: nonnegative demands, times and, with time windows, horizon. -/
structure Spec.Nonnegative (G : Net) (timeWindows : Bool) : Prop where
  demand : ∀ v ∈ G.nodes, 0 ≤ G.demand v
  time : ∀ u v, v ∈ G.succ u → 0 ≤ G.time u v + G.service u
  horizon : timeWindows = true → 0 ≤ G.upper .sink

/-- What is expected of the amounts to collect: they are not negative, and there is nothing to collect at Source or to
deliver to Sink. -/
structure Spec.CollectsGoods (G : Net) : Prop where
  collect : ∀ v ∈ G.nodes, 0 ≤ G.collect v
  source : G.collect .source = 0
  sink : G.demand .sink = 0

theorem mid_ne_nil {q : PricingLP} {cap : ℚ} {p : PVar → ℚ} {mid : List Node} {R : List (Node × Node)}
    (hp : (q.lp cap).Feasible p) (hr : IsSimpleRoute q.G (routeOf mid))
    (hperm : (q.chosen p).Perm (consecutive (routeOf mid) ++ R))
    (hdirect : Node.sink ∈ q.G.succ .source → 0 ≤ q.weight .source .sink)
    (hR : 0 ≤ (R.map (fun e => q.weight e.1 e.2)).sum) (hneg : (q.lp cap).obj.eval p < 0) : mid ≠ [] := by
  rintro rfl
  rw [objective_split hp hperm] at hneg
  have h1 := hdirect (edge_of_leg hr (by simp [routeOf, consecutive_cons_cons]))
  simp only [routeOf, List.nil_append, legSum, add_zero] at hneg
  linarith

/-- **C17**, with the hypotheses needed: without ranks, if all cycles have positive reduced cost and the direct trip Source-Sink
has nonnegative reduced cost, an optimal point with negative objective is exactly one simple route within the limits; with
simultaneous distribution and collection the vehicle can carry the goods on this route all along.  What is missing: pickups
and deliveries; the code only excludes negative cycles, and the claim
is false if a cycle costs 0 (`C17_zero_cycle_counterexample`) or if the direct trip has negative reduced cost
(`C17_direct_trip_counterexample`). -/
theorem C17_optimal_points_partial {q : PricingLP} {prob : LP PVar} {p : PVar → ℚ} (hG : WellFormed q.G)
    (hd : q.G.demand .source = 0) (hs : q.G.service .sink = 0) (hnn : Nonnegative q.G q.timeWindows)
    (hpd : q.pickupDelivery = false) (hdc : q.distributionCollection = true → CollectsGoods q.G)
    (hcyc : PositiveCycles q.G q.weight) (hdirect : Node.sink ∈ q.G.succ .source → 0 ≤ q.weight .source .sink)
    (hform : q.formulate = .ok prob) (hp : prob.Optimal p) (hneg : prob.obj.eval p < 0) :
    ∃ r, Admissible q r ∧ Selects q.G p r ∧ prob.obj.eval p = legSum q.weight r ∧
      (q.distributionCollection = true → ∃ cap, q.caps[q.vehicleType]? = some cap ∧ GoodsWithin q.G cap r) := by
  obtain ⟨cap, rfl, hcap⟩ := formulate_inv hform
  have hf := flowPoint hp.feasible
  obtain ⟨mid, R, hr, hperm, hbal, hnd, hR, hgoods⟩ := light_route_of_feasible hG hnn.demand
    (fun h => ⟨(hdc h).collect, (hdc h).source, (hdc h).sink⟩) hp.feasible
  have hpos : R ≠ [] → 0 < (R.map (fun e => q.weight e.1 e.2)).sum := by
    intro hne
    refine hbal.weight_pos q.weight _ R rfl hnd hne ?_
    intro a t hat hsub
    have := hcyc a t hat ((along_iff _ _).2 (fun u v huv => hR (u, v) (hsub _ huv)))
    rw [legSum_eq] at this
    exact this
  have hRnn : 0 ≤ (R.map (fun e => q.weight e.1 e.2)).sum := by
    by_cases hne : R = []
    · simp [hne]
    · exact (hpos hne).le
  have hne := mid_ne_nil hp.feasible hr hperm hdirect hRnn hneg
  obtain ⟨hfeas, h1, h2, h3⟩ := drop_cycles hG hd hpd hgoods (fun h => hcap (Or.inl h)) hnn.demand hnn.time hnn.horizon
    hp.feasible hr hne hperm hR
  have hRnil : R = [] := by
    by_contra hRne
    have h4 := hp.best _ hfeas
    rw [pointOf_objective hG hr, objective_split hp.feasible hperm] at h4
    linarith [hpos hRne]
  subst hRnil
  have hperm' := hperm
  rw [List.append_nil] at hperm'
  refine ⟨routeOf mid, admissible_of hs hr hne h1 h2 h3 (fun htw => onTime_of_feasible hG hp.feasible htw hr hperm'), ?_, ?_,
    fun h => ⟨cap, hcap (Or.inr (Or.inr h)), (hgoods h).goods⟩⟩
  · intro u v huv
    have := hf.binary.value ((Net.mem_edges hG u v).2 huv)
    simp only [hperm'.mem_iff] at this
    exact this
  · have := objective_split hp.feasible hperm
    simpa using this

/-- **C17**, what the test for negative cycles does guarantee: the objective of an optimal point is the reduced cost of
a route within the limits that the point contains (the point may contain additional cycles of reduced cost 0). -/
theorem C17_optimal_value {q : PricingLP} {prob : LP PVar} {p : PVar → ℚ} (hG : WellFormed q.G)
    (hd : q.G.demand .source = 0) (hs : q.G.service .sink = 0) (hnn : Nonnegative q.G q.timeWindows)
    (hpd : q.pickupDelivery = false) (hdc : q.distributionCollection = true → CollectsGoods q.G)
    (hcyc : NoNegativeCycle q.G q.weight) (hdirect : Node.sink ∈ q.G.succ .source → 0 ≤ q.weight .source .sink)
    (hform : q.formulate = .ok prob) (hp : prob.Optimal p) (hneg : prob.obj.eval p < 0) :
    ∃ r, Admissible q r ∧ prob.obj.eval p = legSum q.weight r ∧ (∀ u v, (u, v) ∈ consecutive r → p (.x u v) = 1) ∧
      (q.distributionCollection = true → ∃ cap, q.caps[q.vehicleType]? = some cap ∧ GoodsWithin q.G cap r) := by
  obtain ⟨cap, rfl, hcap⟩ := formulate_inv hform
  have hf := flowPoint hp.feasible
  obtain ⟨mid, R, hr, hperm, hbal, hnd, hR, hgoods⟩ := light_route_of_feasible hG hnn.demand
    (fun h => ⟨(hdc h).collect, (hdc h).source, (hdc h).sink⟩) hp.feasible
  have hRnn : 0 ≤ (R.map (fun e => q.weight e.1 e.2)).sum := by
    refine hbal.weight_nonneg q.weight _ R rfl hnd ?_
    intro a t hat hsub
    have := hcyc a t hat ((along_iff _ _).2 (fun u v huv => hR (u, v) (hsub _ huv)))
    rw [legSum_eq] at this
    exact this
  have hne := mid_ne_nil hp.feasible hr hperm hdirect hRnn hneg
  obtain ⟨hfeas, h1, h2, h3⟩ := drop_cycles hG hd hpd hgoods (fun h => hcap (Or.inl h)) hnn.demand hnn.time hnn.horizon
    hp.feasible hr hne hperm hR
  refine ⟨routeOf mid, admissible_of hs hr hne h1 h2 h3 (fun htw => onTime_of_feasible hG hfeas htw hr (pointOf_chosen hG hr)),
    ?_, ?_, fun h => ⟨cap, hcap (Or.inr (Or.inr h)), (hgoods h).goods⟩⟩
  · have h4 := hp.best _ hfeas
    rw [pointOf_objective hG hr, objective_split hp.feasible hperm] at h4
    rw [objective_split hp.feasible hperm]
    linarith
  · intro u v huv
    have he : (u, v) ∈ q.chosen p := hperm.mem_iff.2 (List.mem_append_left _ huv)
    have := hf.binary.value (mem_chosen.1 he).1
    rw [if_pos he] at this
    exact this

/-- The big-M constants of the time constraints are large enough: leaving `u` as late as possible, `v` is reached no later
than its opening time plus the closing time of Sink.  Also, windows are not empty and start at 0 or later. -/
structure Spec.WindowsFit (G : Net) : Prop where
  lower : ∀ v ∈ G.nodes, 0 ≤ G.lower v
  window : ∀ v ∈ G.nodes, G.lower v ≤ G.upper v
  arc : ∀ u v, v ∈ G.succ u → G.upper u + G.service u + G.time u v ≤ G.lower v + G.upper .sink

/-- Pickup and delivery: no single demand exceeds the capacity, the requests on the route are complete and in order, the load is between
0 and the capacity all the time and 0 in the end. -/
structure Spec.RequestsFit (q : PricingLP) (cap : ℚ) (r : List Node) : Prop where
  small : ∀ v ∈ q.G.nodes, -cap ≤ q.G.demand v ∧ q.G.demand v ≤ cap
  customers : ∀ v ∈ q.G.nodes, ∀ w, q.G.request v = some w → v ∈ q.G.customers ∧ w ∈ q.G.customers
  together : ∀ v ∈ q.G.nodes, ∀ w, q.G.request v = some w → ((v ∈ r ↔ w ∈ r) ∧ (v ∈ r → List.Sublist [v, w] r))
  loads : ∀ pre post, r = pre ++ post → 0 ≤ load q.G pre ∧ load q.G pre ≤ cap
  empty : load q.G r = 0

/-- Distribution and collection: the amounts are not negative, and the goods on board never exceed the capacity. -/
structure Spec.GoodsFit (q : PricingLP) (cap : ℚ) (r : List Node) : Prop where
  demand : ∀ v ∈ q.G.nodes, 0 ≤ q.G.demand v
  collect : ∀ v ∈ q.G.nodes, 0 ≤ q.G.collect v
  goods : GoodsWithin q.G cap r

/-- The route meets what the variants of the problem ask for. -/
structure Spec.VariantFit (q : PricingLP) (r : List Node) : Prop where
  requests : q.pickupDelivery = true → ∀ cap, q.caps[q.vehicleType]? = some cap → RequestsFit q cap r
  goods : q.distributionCollection = true → ∀ cap, q.caps[q.vehicleType]? = some cap → GoodsFit q cap r

theorem Spec.VariantFit.plain {q : PricingLP} {r : List Node} (hpd : q.pickupDelivery = false)
    (hdc : q.distributionCollection = false) : VariantFit q r :=
  ⟨fun h => (by rw [hpd] at h; cases h), fun h => (by rw [hdc] at h; cases h)⟩

/-- **C18**, under the condition on time windows just stated (without time windows it is not needed): every simple route
within the limits is a feasible point of the pricing problem with the right objective, also with pickup and delivery and with
distribution and collection.  What is missing: with time windows that do
not fit the claim is false, see `C18_time_windows_counterexample`. -/
theorem C18_routes_feasible_partial {q : PricingLP} {prob : LP PVar} {r : List Node} (hG : WellFormed q.G)
    (hd : q.G.demand .source = 0) (hs : q.G.service .sink = 0) (htw : q.timeWindows = true → WindowsFit q.G)
    (hvar : VariantFit q r)
    (hform : q.formulate = .ok prob) (hr : Admissible q r) :
    ∃ p, prob.Feasible p ∧ Selects q.G p r ∧ prob.obj.eval p = legSum q.weight r := by
  obtain ⟨cap, rfl, hcap⟩ := formulate_inv hform
  obtain ⟨mid, rfl, _⟩ := id hr.simple.1
  have hmid := route_customers hr.simple.1
  have hne : mid ≠ [] := by
    have := hr.nonempty
    rwa [stops_routeOf hmid] at this
  have key : ∃ t, q.timeWindows = true → TimesOk q (routeOf mid) t := by
    by_cases hw : q.timeWindows = true
    · have hot := hr.onTime hw
      have hfit := htw hw
      obtain ⟨t, h1, h2, h3, h4⟩ := exists_times (mid ++ [Node.sink]) .source (q.G.lower .source) hr.simple.2 hot
      have hwin : ∀ v ∈ q.G.nodes, q.G.lower v ≤ t v ∧ t v ≤ q.G.upper v := by
        intro v hv
        by_cases hv' : v ∈ routeOf mid
        · rcases List.mem_cons.1 hv' with rfl | hv'
          · rw [h1]; exact ⟨le_refl _, hfit.window _ hv⟩
          · exact h2 v hv'
        · rw [h4 v hv']; exact ⟨le_refl _, hfit.window v hv⟩
      refine ⟨t, fun _ => ⟨fun v hv => le_trans (hfit.lower v hv) (hwin v hv).1, hwin, h3, ?_⟩⟩
      intro u v huv _
      have := hfit.arc u v huv
      have h5 := (hwin u (hG.edge_mem u v huv).1).2
      have h6 := (hwin v (hG.edge_mem u v huv).2).1
      linarith
    · exact ⟨fun _ => 0, fun h => absurd h hw⟩
  obtain ⟨t, ht⟩ := key
  have hst := hr.stops
  rw [stops_routeOf hmid] at hst
  refine ⟨q.pointOf (routeOf mid) t, pointOf_feasible hG hd hr.simple hne hst ?_ ?_ ht ?_ ?_, ?_,
    pointOf_objective hG hr.simple⟩
  · intro hc
    obtain ⟨c, h1, h2⟩ := hr.load hc
    rw [hcap (Or.inl hc)] at h1
    cases h1
    exact h2
  · rw [hs, sub_zero]; exact hr.duration
  · intro hpd
    have h2 := hvar.requests hpd cap (hcap (Or.inr (Or.inl hpd)))
    exact ⟨h2.small, fun v hv w hvw => ⟨(h2.customers v hv w hvw).1, (h2.customers v hv w hvw).2, h2.together v hv w hvw⟩, h2.loads, h2.empty⟩
  · intro hdc
    have h2 := hvar.goods hdc cap (hcap (Or.inr (Or.inr hdc)))
    exact ⟨h2.demand, h2.collect, h2.goods⟩
  · intro u v _
    rfl

/-- **C18**, second half: under the same condition, if the solver is exact, pricing with ranks finds a route whenever one
of reduced cost below -0.001 exists, and the one found is at least as good. -/
theorem C18_finds_route_partial {q : PricingLP} {keys : List Node} {solver : LP PVar → PricingLP.Answer} {cols : List Column}
    {prob : LP PVar} {r : List Node} (hG : WellFormed q.G) (hcost : CostsFor q.G (q.vehicleType + 1))
    (hkeys : ∀ v ∈ q.G.customers, v ∈ keys)
    (hd : q.G.demand .source = 0) (hs : q.G.service .sink = 0) (htw : q.timeWindows = true → WindowsFit q.G)
    (hvar : VariantFit q r) (helem : q.negCycle = true ∨ q.pickupDelivery = true)
    (hform : q.formulate = .ok prob) (hsolver : SolverExact solver)
    (hr : Admissible q r) (hneg : legSum q.weight r < -(1 / 1000)) :
    ∃ c r', q.solve true false keys solver cols = .ok (cols ++ [c], true) ∧ Encodes q.G c r' ∧ Admissible q r' ∧
      legSum q.weight r' ≤ legSum q.weight r := by
  obtain ⟨p, hp, _, hobj⟩ := C18_routes_feasible_partial hG hd hs htw hvar hform hr
  obtain ⟨y, hy⟩ := optimal_exists hform hp
  obtain ⟨h1, h2, h3⟩ := hsolver prob y hy
  have hle := h2.best p hp
  obtain ⟨r', h4, h5, h6⟩ := C16_feasible_points hG hd hs helem hform h2.feasible
  have hperm := chosen_of_selects hG h4.simple h5
  have hsum : sumEdgeCosts q.G q.vehicleType (q.chosen (solver prob).point) =
      .ok (((q.chosen (solver prob).point).map (fun e => (q.G.cost e.1 e.2).getD q.vehicleType 0)).sum) := by
    refine sumEdgeCosts_ok.2 ⟨?_, rfl⟩
    intro e he
    have := (Net.mem_edges hG e.1 e.2).1 (mem_chosen.1 he).1
    have := hcost e.1 e.2 this
    exact ⟨by assumption, by omega⟩
  have hany : (q.chosen (solver prob).point).any (fun e => e.1 ≠ .source ∧ e.1 ∉ keys) = false := by
    rw [List.any_eq_false]
    intro e he
    have hsucc := (Net.mem_edges hG e.1 e.2).1 (mem_chosen.1 he).1
    simp only [decide_eq_true_eq]
    rintro ⟨h7, h8⟩
    apply h8
    apply hkeys
    refine mem_customers.2 ⟨(hG.edge_mem _ _ hsucc).1, h7, ?_⟩
    intro h9
    rw [h9, hG.no_out_of_sink] at hsucc
    cases hsucc
  have hlt : prob.obj.eval (solver prob).point < -(1 / 1000) := by linarith
  refine ⟨⟨.num (cols.length + 1), none, graphNodes (q.chosen (solver prob).point), graphEdges (q.chosen (solver prob).point),
    ((q.chosen (solver prob).point).map (fun e => (q.G.cost e.1 e.2).getD q.vehicleType 0)).sum, q.vehicleType⟩, r', ?_,
    encodes_of_perm h4.simple.2 ?_ hperm rfl rfl hsum, h4, ?_⟩
  · unfold solve
    simp only [hform, h3, h1, hlt, and_self, if_true, addRoute, hsum, hany]
    rfl
  · obtain ⟨mid, rfl, _⟩ := h4.simple.1
    simp [routeOf]
  · rw [← h6, ← hobj]; exact hle

/-- **C50.** With pickup and delivery, every feasible point is a simple route that contains pickup and delivery of a
request or neither, the pickup first, and along which the load is always between 0 and the capacity and finally 0. -/
theorem C50_pickup_delivery {q : PricingLP} {prob : LP PVar} {p : PVar → ℚ} (hG : WellFormed q.G)
    (hd : q.G.demand .source = 0) (hs : q.G.service .sink = 0) (hpd : q.pickupDelivery = true)
    (hreq : ∀ v w, q.G.request v = some w → v ∈ q.G.customers ∧ w ∈ q.G.customers ∧ v ≠ w)
    (hform : q.formulate = .ok prob) (hp : prob.Feasible p) :
    ∃ r cap, q.caps[q.vehicleType]? = some cap ∧ Admissible q r ∧ Selects q.G p r ∧
      (∀ v w, q.G.request v = some w → ((v ∈ r ↔ w ∈ r) ∧ (v ∈ r → List.Sublist [v, w] r))) ∧
      (∀ pre post, r = pre ++ post → 0 ≤ load q.G pre ∧ load q.G pre ≤ cap) ∧ load q.G r = 0 := by
  obtain ⟨r, h1, h2, _⟩ := C16_feasible_points hG hd hs (Or.inr hpd) hform hp
  obtain ⟨cap, rfl, hcap⟩ := formulate_inv hform
  have hr := h1.simple
  obtain ⟨mid, rfl, _⟩ := id h1.simple.1
  obtain ⟨k1, k2⟩ := pd_of_feasible hG hd (fun v _ w => hreq v w) hpd hp hr (chosen_of_selects hG hr h2)
  exact ⟨routeOf mid, cap, hcap (Or.inr (Or.inl hpd)), h1, h2,
    fun v w hvw => k1 v (mem_customers.1 (hreq v w hvw).1).1 w hvw, k2⟩

/-- **C50**, converse: every such route (without time windows) is a feasible point, if no single demand exceeds the
capacity. -/
theorem C50_routes_feasible {q : PricingLP} {prob : LP PVar} {r : List Node} {cap : ℚ} (hG : WellFormed q.G)
    (hd : q.G.demand .source = 0) (hs : q.G.service .sink = 0) (hpd : q.pickupDelivery = true)
    (hdc : q.distributionCollection = false) (htw : q.timeWindows = false)
    (hcap : q.caps[q.vehicleType]? = some cap) (hsmall : ∀ v ∈ q.G.nodes, -cap ≤ q.G.demand v ∧ q.G.demand v ≤ cap)
    (hreq : ∀ v w, q.G.request v = some w → v ∈ q.G.customers ∧ w ∈ q.G.customers)
    (hform : q.formulate = .ok prob) (hr : Admissible q r)
    (hrr : ∀ v w, q.G.request v = some w → ((v ∈ r ↔ w ∈ r) ∧ (v ∈ r → List.Sublist [v, w] r)))
    (hload : ∀ pre post, r = pre ++ post → 0 ≤ load q.G pre ∧ load q.G pre ≤ cap) (hzero : load q.G r = 0) :
    ∃ p, prob.Feasible p ∧ Selects q.G p r ∧ prob.obj.eval p = legSum q.weight r := by
  obtain ⟨cap', rfl, hcap'⟩ := formulate_inv hform
  have : cap' = cap := by
    have := hcap' (Or.inr (Or.inl hpd))
    rw [hcap] at this
    exact (Option.some.inj this).symm
  subst this
  obtain ⟨mid, rfl, _⟩ := id hr.simple.1
  have hmid := route_customers hr.simple.1
  have hne : mid ≠ [] := by
    have := hr.nonempty
    rwa [stops_routeOf hmid] at this
  have hst := hr.stops
  rw [stops_routeOf hmid] at hst
  refine ⟨q.pointOf (routeOf mid) (fun _ => 0), pointOf_feasible hG hd hr.simple hne hst ?_ ?_ (by simp [htw]) ?_ (by simp [hdc]),
    fun u v _ => rfl, pointOf_objective hG hr.simple⟩
  · intro _
    exact (hload (routeOf mid) [] (by simp)).2
  · rw [hs, sub_zero]; exact hr.duration
  · intro _
    exact ⟨hsmall, fun v _ w hvw => ⟨(hreq v w hvw).1, (hreq v w hvw).2, hrr v w hvw⟩, hload, hzero⟩

/-- **C51.** With simultaneous distribution and collection and ranks, every feasible point is a simple route on which the
goods on board never exceed the capacity.  What is missing: without ranks feasible points may contain cycles
(`C51_cycle_counterexample`). -/
theorem C51_goods_partial {q : PricingLP} {prob : LP PVar} {p : PVar → ℚ} (hG : WellFormed q.G)
    (hd : q.G.demand .source = 0) (hd' : q.G.demand .sink = 0) (hcol : q.G.collect .source = 0)
    (hs : q.G.service .sink = 0) (hdc : q.distributionCollection = true) (helem : q.negCycle = true)
    (hform : q.formulate = .ok prob) (hp : prob.Feasible p) :
    ∃ r cap, q.caps[q.vehicleType]? = some cap ∧ Admissible q r ∧ Selects q.G p r ∧ GoodsWithin q.G cap r := by
  obtain ⟨r, h1, h2, _⟩ := C16_feasible_points hG hd hs (Or.inl helem) hform hp
  obtain ⟨cap, rfl, hcap⟩ := formulate_inv hform
  have hr := h1.simple
  obtain ⟨mid, rfl, _⟩ := id h1.simple.1
  exact ⟨routeOf mid, cap, hcap (Or.inr (Or.inr hdc)), h1, h2,
    dc_of_feasible hG hd' hcol hdc hp hr (chosen_of_selects hG hr h2)⟩

/-- **C51**, converse: every such route (without time windows) is a feasible point. -/
theorem C51_routes_feasible {q : PricingLP} {prob : LP PVar} {r : List Node} {cap : ℚ} (hG : WellFormed q.G)
    (hd : q.G.demand .source = 0) (hs : q.G.service .sink = 0) (hpd : q.pickupDelivery = false)
    (hdc : q.distributionCollection = true) (htw : q.timeWindows = false)
    (hdem : ∀ v ∈ q.G.nodes, 0 ≤ q.G.demand v) (hcol : ∀ v ∈ q.G.nodes, 0 ≤ q.G.collect v)
    (hcap : q.caps[q.vehicleType]? = some cap)
    (hform : q.formulate = .ok prob) (hr : Admissible q r) (hgoods : GoodsWithin q.G cap r) :
    ∃ p, prob.Feasible p ∧ Selects q.G p r ∧ prob.obj.eval p = legSum q.weight r := by
  obtain ⟨cap', rfl, hcap'⟩ := formulate_inv hform
  have : cap' = cap := by
    have := hcap' (Or.inr (Or.inr hdc))
    rw [hcap] at this
    exact (Option.some.inj this).symm
  subst this
  obtain ⟨mid, rfl, _⟩ := id hr.simple.1
  have hmid := route_customers hr.simple.1
  have hne : mid ≠ [] := by
    have := hr.nonempty
    rwa [stops_routeOf hmid] at this
  have hst := hr.stops
  rw [stops_routeOf hmid] at hst
  refine ⟨q.pointOf (routeOf mid) (fun _ => 0), pointOf_feasible hG hd hr.simple hne hst ?_ ?_ (by simp [htw]) (by simp [hpd]) ?_,
    fun u v _ => rfl, pointOf_objective hG hr.simple⟩
  · intro hc
    obtain ⟨c, h1, h2⟩ := hr.load hc
    rw [hcap] at h1
    cases h1
    exact h2
  · rw [hs, sub_zero]; exact hr.duration
  · intro _
    exact ⟨hdem, hcol, hgoods⟩

/-! ## Examples and counterexamples -/

/-- Three customers, each joined to both depots, and 2 and 3 joined to each other. -/
def exTriangle : Net where
  nodes := [.source, .cust 1, .cust 2, .cust 3, .sink]
  succ
    | .source => [.cust 1, .cust 2, .cust 3]
    | .cust 1 => [.sink]
    | .cust 2 => [.cust 3, .sink]
    | .cust 3 => [.cust 2, .sink]
    | _ => []
  demand := fun v => if v.isDepot then 0 else 1
  upper := fun _ => 100
  cost := fun _ _ => [1]

theorem exTriangle_wf : WellFormed exTriangle := by
  refine ⟨by decide, ?_, ?_, by decide, by decide, ?_, by decide⟩
  · intro u; simp only [exTriangle]; split <;> decide
  · intro u v; simp only [exTriangle]; split <;> simp <;> tauto
  · intro u; simp only [exTriangle]; split <;> decide

theorem exTriangle_zero_wf : WellFormed { exTriangle with demand := fun _ => 0 } :=
  ⟨exTriangle_wf.1, exTriangle_wf.2, exTriangle_wf.3, exTriangle_wf.4, exTriangle_wf.5, exTriangle_wf.6, exTriangle_wf.7⟩

/-- Pricing on `exTriangle`: customer 1 is worth a visit, nothing else is. -/
def exPricing (neg : Bool) : PricingLP where
  G := exTriangle
  weight := fun u v => if u = .source ∧ v = .cust 1 then -1 else 0
  caps := [2]
  numStops := some 3
  negCycle := neg

theorem exRoute : Admissible (exPricing true) [.source, .cust 1, .sink] := by
  refine ⟨isSimpleRoute_routeOf (L := [.cust 1]) (by decide) (by decide) ?_, by decide, ?_, ?_, ?_, ?_⟩
  · simp [Along, routeOf, exPricing, exTriangle]
  · intro m hm _
    cases hm
    decide
  · intro _
    exact ⟨2, rfl, by decide +kernel⟩
  · intro d hd; cases hd
  · intro h; cases h

/-- The hypotheses of C16 and C18 are met, with and without ranks, and by a problem that has feasible points. -/
example : ∃ prob p, (exPricing true).formulate = .ok prob ∧ prob.Feasible p ∧ prob.obj.eval p = -1 ∧
    WellFormed (exPricing true).G ∧ (exPricing true).G.demand .source = 0 ∧ (exPricing true).G.service .sink = 0 := by
  obtain ⟨p, h1, _, h3⟩ := C18_routes_feasible_partial (q := exPricing true) (r := [.source, .cust 1, .sink]) exTriangle_wf
    rfl rfl (by intro h; cases h) (.plain rfl rfl) rfl exRoute
  refine ⟨_, p, rfl, h1, ?_, exTriangle_wf, rfl, rfl⟩
  rw [h3]
  decide +kernel

theorem noNegativeCycle_of {G : Net} {w : Node → Node → ℚ} (hG : WellFormed G)
    (h : ∀ u v, v ∈ G.succ u → u ≠ .source → 0 ≤ w u v) : NoNegativeCycle G w := by
  intro a t _ hal
  have hal' := (along_iff _ _).1 hal
  rw [legSum_eq]
  apply List.sum_nonneg
  intro x hx
  obtain ⟨⟨u, v⟩, he, rfl⟩ := List.mem_map.1 hx
  refine h u v (hal' u v he) ?_
  rintro rfl
  have hu : Node.source ∈ t ++ [a] := by
    have := fst_mem_of_consecutive he
    simp only [List.cons_append, List.mem_cons, List.mem_append, List.not_mem_nil, or_false] at this ⊢
    tauto
  obtain ⟨x, hx⟩ := pred_of_mem (t ++ [a]) a hu
  exact hG.no_into_source x (hal' x _ hx)

/-- The route Source, 1, Sink and the cycle 2, 3, 2. -/
def exCyclePoint : PVar → ℚ
  | .x .source (.cust 1) => 1
  | .x (.cust 1) .sink => 1
  | .x (.cust 2) (.cust 3) => 1
  | .x (.cust 3) (.cust 2) => 1
  | _ => 0

/-- **C17**, counterexample: there is no cycle of negative reduced cost, so there are no ranks, and an optimal point
consists of a route and a separate cycle of reduced cost 0: the new column is not a route. -/
theorem C17_zero_cycle_counterexample :
    ∃ (q : PricingLP) (prob : LP PVar) (p : PVar → ℚ), WellFormed q.G ∧ Nonnegative q.G q.timeWindows ∧ NoNegativeCycle q.G q.weight ∧ q.negCycle = false ∧
      Node.sink ∉ q.G.succ .source ∧ q.formulate = .ok prob ∧ prob.Optimal p ∧ prob.obj.eval p < -(1 / 1000) ∧
      ((Node.cust 2, Node.cust 3) ∈ q.chosen p ∧ (Node.cust 3, Node.cust 2) ∈ q.chosen p) ∧
      ¬ ∃ r, IsSimpleRoute q.G r ∧ Selects q.G p r := by
  refine ⟨{ exPricing false with caps := [] }, _, exCyclePoint, exTriangle_wf, ⟨?_, ?_, by decide⟩, ?_, rfl,
    by decide, rfl, ⟨?_, ?_⟩, ?_, ?_, ?_⟩
  · intro v _; simp only [exPricing, exTriangle]; split <;> norm_num
  · intro u v _; simp [exPricing, exTriangle]
  · refine noNegativeCycle_of exTriangle_wf ?_
    intro u v _ hu
    simp [exPricing, hu]
  · exact feasible_of _ _ (by decide +kernel)
  · intro x' hx'
    have h1 := (flowPoint hx').binary (.source, .cust 1) (by decide +kernel)
    have h2 : (PricingLP.lp { exPricing false with caps := [] } 0).obj.eval exCyclePoint = -1 := by decide +kernel
    have h3 : (PricingLP.lp { exPricing false with caps := [] } 0).obj.eval x' = -x' (.x .source (.cust 1)) := by
      simp [PricingLP.lp, PricingLP.objective, exPricing, exTriangle, Net.edges]
    rw [h2, h3]
    simp only at h1
    rcases h1 with h | h <;> rw [h] <;> norm_num
  · decide +kernel
  · constructor <;> decide +kernel
  · rintro ⟨r, hr, hsel⟩
    have h1 := hsel (.cust 2) (.cust 3) (by decide)
    have h2 := hsel (.cust 3) (.cust 2) (by decide)
    have e1 : (Node.cust 2, Node.cust 3) ∈ consecutive r := by
      by_contra hc
      rw [if_neg hc] at h1
      exact absurd h1 (by decide +kernel)
    have e2 : (Node.cust 3, Node.cust 2) ∈ consecutive r := by
      by_contra hc
      rw [if_neg hc] at h2
      exact absurd h2 (by decide +kernel)
    have g1 := (before_leg hr.2 e1).1
    have g2 := (before_leg hr.2 e2).1
    have := congrArg List.length g1
    have := congrArg List.length g2
    simp at *
    omega

/-- **C51**, counterexample without ranks: customers 2 and 3 without demand, and a feasible point with the cycle
2, 3, 2. -/
theorem C51_cycle_counterexample :
    ∃ (q : PricingLP) (prob : LP PVar) (p : PVar → ℚ), WellFormed q.G ∧ NoNegativeCycle q.G q.weight ∧ q.negCycle = false ∧ q.distributionCollection = true ∧
      q.formulate = .ok prob ∧ prob.Feasible p ∧
      ((Node.cust 2, Node.cust 3) ∈ q.chosen p ∧ (Node.cust 3, Node.cust 2) ∈ q.chosen p) := by
  refine ⟨{ exPricing false with
      G := { exTriangle with demand := fun _ => 0 }, distributionCollection := true }, _, exCyclePoint,
    exTriangle_zero_wf, ?_, rfl, rfl, rfl, ?_, ?_⟩
  · refine noNegativeCycle_of exTriangle_zero_wf ?_
    intro u v _ hu
    simp [exPricing, hu]
  · exact feasible_of _ _ (by decide +kernel)
  · constructor <;> decide +kernel

/-- Pricing with a direct trip of reduced cost -1 (as with `use_all_vehicles`, where the dual of the fleet can be positive). -/
def exDirect : PricingLP where
  G := { exTriangle with
    succ := fun u => match u with
      | .source => [.cust 1, .cust 2, .cust 3, .sink]
      | .cust 1 => [.sink]
      | .cust 2 => [.cust 3, .sink]
      | .cust 3 => [.cust 2, .sink]
      | _ => [] }
  weight := fun u v => if u = .source ∧ v = .sink then -1 else if u = .cust 2 ∧ v = .cust 3 then 1 / 4
    else if u = .cust 3 ∧ v = .cust 2 then 1 / 4 else 0
  negCycle := false

/-- The direct trip and the cycle 2, 3, 2. -/
def exDirectPoint : PVar → ℚ
  | .x .source .sink => 1
  | .x (.cust 2) (.cust 3) => 1
  | .x (.cust 3) (.cust 2) => 1
  | _ => 0

/-- **C17**, counterexample for the direct trip: all cycles have positive reduced cost, but because a point must use two
edges, the optimal point is the direct trip with a cycle next to it. -/
theorem C17_direct_trip_counterexample :
    ∃ prob, exDirect.formulate = .ok prob ∧ prob.Optimal exDirectPoint ∧ prob.obj.eval exDirectPoint < -(1 / 1000) ∧
      exDirect.weight (.cust 2) (.cust 3) + exDirect.weight (.cust 3) (.cust 2) > 0 ∧
      (Node.cust 2, Node.cust 3) ∈ exDirect.chosen exDirectPoint ∧
      (Node.cust 3, Node.cust 2) ∈ exDirect.chosen exDirectPoint ∧
      (Node.source, Node.sink) ∈ exDirect.chosen exDirectPoint := by
  refine ⟨_, rfl, ⟨feasible_of _ _ (by decide +kernel), ?_⟩, by decide +kernel, by decide +kernel, by decide +kernel,
    by decide +kernel, by decide +kernel⟩
  intro x' hx'
  have hf := flowPoint hx'
  have h2 : (PricingLP.lp exDirect 0).obj.eval exDirectPoint = -(1 / 2) := by decide +kernel
  have h3 : (PricingLP.lp exDirect 0).obj.eval x' = -x' (.x .source .sink) + 1 / 4 * x' (.x (.cust 2) (.cust 3)) +
      1 / 4 * x' (.x (.cust 3) (.cust 2)) := by
    simp [PricingLP.lp, PricingLP.objective, exDirect, exTriangle, Net.edges]
    ring
  have hs := hf.source
  have ht := hf.sink
  have b2 := hf.balance (.cust 2) (by decide +kernel)
  have b3 := hf.balance (.cust 3) (by decide +kernel)
  have two := hf.two
  have hb := fun u v => hf.binary (u, v)
  have c1 := hb .source (.cust 1) (by decide +kernel)
  have c2 := hb .source (.cust 2) (by decide +kernel)
  have c3 := hb .source (.cust 3) (by decide +kernel)
  have c4 := hb .source .sink (by decide +kernel)
  have c5 := hb (.cust 2) (.cust 3) (by decide +kernel)
  have c6 := hb (.cust 3) (.cust 2) (by decide +kernel)
  have c7 := hb (.cust 1) .sink (by decide +kernel)
  have c8 := hb (.cust 2) .sink (by decide +kernel)
  have c9 := hb (.cust 3) .sink (by decide +kernel)
  simp [PricingLP.outFlow, PricingLP.inFlow, exDirect, exTriangle, Net.preds, Net.hasEdge, Net.edges] at hs ht b2 b3 two
  simp only at c1 c2 c3 c4 c5 c6 c7 c8 c9
  rw [h2, h3]
  have nn : ∀ z : ℚ, z = 0 ∨ z = 1 → 0 ≤ z := by rintro z (h | h) <;> rw [h] <;> norm_num
  have d1 := nn _ c1
  have d2 := nn _ c2
  have d3 := nn _ c3
  have d7 := nn _ c7
  have d8 := nn _ c8
  have d9 := nn _ c9
  rcases c4 with c4 | c4 <;> rcases c5 with c5 | c5 <;> rcases c6 with c6 | c6 <;> linarith

/-- Two customers with time windows [0, 60] and [0, 100]; the depot closes at 100. -/
def exWindows : PricingLP where
  G :=
    { nodes := [.source, .cust 1, .cust 2, .sink]
      succ := fun u => match u with
        | .source => [.cust 1, .cust 2]
        | .cust 1 => [.cust 2, .sink]
        | .cust 2 => [.cust 1, .sink]
        | _ => []
      upper := fun v => if v = .cust 1 then 60 else 100
      time := fun u v => if u = .cust 1 ∧ v = .cust 2 then 80 else if u = .cust 2 ∧ v = .cust 1 then 50 else 10 }
  weight := fun _ _ => -1
  timeWindows := true

theorem exWindows_wf : WellFormed exWindows.G := by
  refine ⟨by decide, ?_, ?_, by decide, by decide, ?_, rfl⟩
  · intro u; simp only [exWindows]; split <;> decide
  · intro u v; simp only [exWindows]; split <;> simp <;> tauto
  · intro u; simp only [exWindows]; split <;> decide

/-- **C18**, counterexample: Source (0), 1 (10), 2 (90), Sink (100) is on time, but not a feasible point: the constraint of
the arc from 2 to 1, which is not used, still forces `t_2 + 50 ≤ t_1 + 100`.  All arcs survive the preprocessing. -/
theorem C18_time_windows_counterexample :
    ∃ prob, exWindows.formulate = .ok prob ∧ WellFormed exWindows.G ∧
      Admissible exWindows [.source, .cust 1, .cust 2, .sink] ∧
      (∃ G', pruneGraph exWindows.G [] true = .ok G' ∧ ∀ u ∈ exWindows.G.nodes, G'.succ u = exWindows.G.succ u) ∧
      ¬ ∃ p, prob.Feasible p ∧ Selects exWindows.G p [.source, .cust 1, .cust 2, .sink] := by
  refine ⟨_, rfl, exWindows_wf, ⟨isSimpleRoute_routeOf (L := [.cust 1, .cust 2]) (by decide) (by decide) ?_, by decide,
    ?_, ?_, ?_, ?_⟩, ?_, ?_⟩
  · simp [Along, routeOf, exWindows]
  · intro m hm _; cases hm
  · intro h; exact absurd rfl h
  · intro d hd; cases hd
  · intro _
    show ∀ p ∈ _, _
    decide +kernel
  · have : ∃ G', pruneGraph exWindows.G [] true = .ok G' := ⟨_, rfl⟩
    obtain ⟨G', hG'⟩ := this
    refine ⟨G', hG', ?_⟩
    have key : (match pruneGraph exWindows.G [] true with
      | .ok G' => decide (∀ u ∈ exWindows.G.nodes, G'.succ u = exWindows.G.succ u)
      | .error _ => false) = true := by decide +kernel
    rw [hG'] at key
    simpa using key
  · rintro ⟨p, hp, hsel⟩
    have hc : ∀ c ∈ exWindows.timeConstrs, c.Holds p := by
      intro c hc
      apply hp.constrs
      simp [PricingLP.lp, exWindows] at hc ⊢
      tauto
    have c1 := hc ⟨[(1, .t (.cust 1)), (-1, .t (.cust 2)), (100, .x (.cust 1) (.cust 2))], .le, 100 - 0 - 80⟩
      (by simp [timeConstrs, exWindows, Net.edges])
    have c2 := hc ⟨[(1, .t (.cust 2)), (-1, .t (.cust 1)), (100, .x (.cust 2) (.cust 1))], .le, 100 - 0 - 50⟩
      (by simp [timeConstrs, exWindows, Net.edges])
    have c3 := hc ⟨[(1, .t (.cust 2)), (-1, .t .sink), (100, .x (.cust 2) .sink)], .le, 100 - 0 - 10⟩
      (by simp [timeConstrs, exWindows, Net.edges])
    have c4 := hc ⟨[(1, .t .sink)], .le, 100⟩ (by simp [timeConstrs, exWindows])
    have x1 := hsel (.cust 1) (.cust 2) (by decide)
    have x2 := hsel (.cust 2) (.cust 1) (by decide)
    have x3 := hsel (.cust 2) .sink (by decide)
    rw [if_pos (by decide)] at x1 x3
    rw [if_neg (by decide)] at x2
    simp only [Constr.Holds, eval_cons, eval_nil, x1, x2, x3] at c1 c2 c3 c4
    linarith

/-- Windows that fit: the same network with a depot that closes at 190 (C18 applies). -/
example : WindowsFit { exWindows.G with upper := fun v => if v = .sink then 190 else if v = .cust 1 then 60 else 100 } := by
  refine ⟨?_, ?_, ?_⟩
  · intro v _; simp [exWindows]
  · intro v _; simp only [exWindows]; split <;> (try split) <;> norm_num
  · intro u v huv
    simp only [exWindows] at huv ⊢
    split at huv <;> simp at huv <;> rcases huv with rfl | rfl <;> decide +kernel

/-- One request: pickup at 1, delivery at 2, capacity 5 (C50). -/
def exPickup : PricingLP where
  G := { exWindows.G with
    demand := fun v => if v = .cust 1 then 5 else if v = .cust 2 then -5 else 0
    request := fun v => if v = .cust 1 then some (.cust 2) else none }
  weight := fun _ _ => -1
  caps := [5]
  pickupDelivery := true

theorem exPickup_request : ∀ v w, exPickup.G.request v = some w →
    v ∈ exPickup.G.customers ∧ w ∈ exPickup.G.customers ∧ v ≠ w := by
  intro v w h
  simp only [exPickup] at h
  split at h
  · rename_i hv
    cases h
    subst hv
    exact ⟨by decide, by decide, by decide⟩
  · cases h

/-- The hypotheses of C50 are met by a problem with a feasible point. -/
example : ∃ prob p, exPickup.formulate = .ok prob ∧ prob.Feasible p ∧ prob.obj.eval p = -3 ∧
    Selects exPickup.G p [.source, .cust 1, .cust 2, .sink] := by
  have hp : exPickup.formulate = .ok (exPickup.lp 5) := by
    unfold formulate
    rw [if_pos (by simp [exPickup])]
    have : exPickup.capacity = .ok 5 := by decide +kernel
    simp only [this]
    rw [if_neg (by decide +kernel)]
  have hr : IsSimpleRoute exPickup.G [.source, .cust 1, .cust 2, .sink] :=
    isSimpleRoute_routeOf (L := [.cust 1, .cust 2]) (by decide) (by decide) (by
      simp [Along, routeOf, exPickup, exWindows])
  refine ⟨_, exPickup.pointOf [.source, .cust 1, .cust 2, .sink] (fun _ => 0), hp, ?_, ?_, fun _ _ _ => rfl⟩
  · exact feasible_of _ _ (by decide +kernel)
  · decide +kernel

/-- Deliver 3 and collect 4 at customer 1, the other way round at customer 2, capacity 7 (C51). -/
def exCollect : PricingLP where
  G := { exWindows.G with
    demand := fun v => if v = .cust 1 then 3 else if v = .cust 2 then 4 else 0
    collect := fun v => if v = .cust 1 then 4 else if v = .cust 2 then 3 else 0 }
  weight := fun _ _ => -1
  caps := [8]
  distributionCollection := true

/-- The hypotheses of C51 are met: visiting 1 first needs 8 units of space between the customers, which fits. -/
example : ∃ p, (exCollect.lp 8).Feasible p ∧ exCollect.formulate = .ok (exCollect.lp 8) ∧
    Selects exCollect.G p [.source, .cust 1, .cust 2, .sink] ∧
    ¬ (exCollect.lp 7).Feasible (exCollect.pointOf [.source, .cust 1, .cust 2, .sink] (fun _ => 0)) := by
  refine ⟨exCollect.pointOf [.source, .cust 1, .cust 2, .sink] (fun _ => 0), feasible_of _ _ (by decide +kernel), rfl,
    fun _ _ _ => rfl, ?_⟩
  intro h
  exact absurd (And.intro h.vars h.constrs) (by decide +kernel)

end Vrpy
