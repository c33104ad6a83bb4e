import Verif.Props.Threshold
import Verif.Props.CspyBoundCases

/-!
# C78: examples
-/

namespace Vrpy

open Spec Cspy

namespace Cspy

/-- A labelling algorithm that stops with the first path that is not above the threshold. -/
def lazyLabels (q : Cspy) : ThrOracle := fun m e thr =>
  let paths := (q.G.walks m.stops.floor.toNat .source).filter (fun p => (!e || decide p.Nodup) && q.limitsHold m p)
  match thr with
  | none => cheapest (legSum q.weight) paths
  | some t =>
    match paths.find? (fun p => legSum q.weight p ≤ t) with
    | none => cheapest (legSum q.weight) paths
    | some p => some (legSum q.weight p, p)

theorem lazyLabels_sound (q : Cspy) (thr : Option ℚ) : CspySound q (fun m e => lazyLabels q m e thr) := by
  intro m e c path h
  simp only [lazyLabels] at h
  cases thr with
  | none => exact exactLabels_sound q m e c path h
  | some t =>
    simp only at h
    split at h
    · exact exactLabels_sound q m e c path h
    · rename_i p hp
      simp only [Option.some.injEq, Prod.mk.injEq] at h
      obtain ⟨rfl, rfl⟩ := h
      obtain ⟨h3, h4⟩ := List.mem_filter.1 (List.mem_of_find?_eq_some hp)
      obtain ⟨w1, w2, w3, _⟩ := Net.mem_walks.1 h3
      simp only [Bool.and_eq_true, Bool.or_eq_true, Bool.not_eq_true', decide_eq_true_eq] at h4
      refine ⟨w1, w2, w3, rfl, ?_, limitsHold_iff.1 h4.2⟩
      intro he
      rcases h4.1 with h | h
      · rw [he] at h; cases h
      · exact h

theorem lazyLabels_stops (q : Cspy) : CspyStops q (lazyLabels q) := by
  intro m e thr path h1 h2 h3 h4 h5
  obtain ⟨c, p, hc, hle⟩ := exactLabels_best h1 h2 h3 h4 h5
  unfold lazyLabels
  cases thr with
  | none => exact ⟨c, p, hc, Or.inl hle⟩
  | some t =>
    simp only
    split
    · exact ⟨c, p, hc, Or.inl hle⟩
    · rename_i p' hp'
      have := List.find?_some hp'
      simp only [decide_eq_true_eq] at this
      exact ⟨_, p', rfl, Or.inr ⟨t, rfl, this⟩⟩

end Cspy

/-- Two routes: one with one customer and one with two. -/
def exTwoWays : Net where
  nodes := [.source, .cust 1, .cust 2, .cust 3, .sink]
  succ := fun u => match u with
    | .source => [.cust 1, .cust 2]
    | .cust 1 => [.sink]
    | .cust 2 => [.cust 3]
    | .cust 3 => [.sink]
    | _ => []

/-- Elementary paths are asked for; the route with two customers is better, but no arc is better than the other route. -/
def exThreshold (w : ℚ) : Cspy where
  G := exTwoWays
  weight := fun u v => if (u, v) = (.cust 1, .sink) then 0 else w
  numStops := some 2
  elementary := true

theorem exTwoWays_wf : WellFormed exTwoWays where
  nodes_nodup := by decide
  succ_nodup := fun u => by
    match u with
    | .source => decide
    | .sink => decide
    | .cust 0 => decide
    | .cust 1 => decide
    | .cust 2 => decide
    | .cust 3 => decide
    | .cust (n + 4) => exact List.nodup_nil
  edge_mem := fun u v h => by
    match u, h with
    | .source, h =>
      have : v = .cust 1 ∨ v = .cust 2 := by simpa [exTwoWays] using h
      rcases this with rfl | rfl <;> decide
    | .cust 1, h =>
      have : v = .sink := by simpa [exTwoWays] using h
      subst this; decide
    | .cust 2, h =>
      have : v = .cust 3 := by simpa [exTwoWays] using h
      subst this; decide
    | .cust 3, h =>
      have : v = .sink := by simpa [exTwoWays] using h
      subst this; decide
    | .cust 0, h => cases h
    | .cust (n + 4), h => cases h
    | .sink, h => cases h
  source_mem := by decide
  sink_mem := by decide
  no_into_source := fun u h => by
    match u, h with
    | .source, h => simp [exTwoWays] at h
    | .cust 0, h => cases h
    | .cust 1, h => simp [exTwoWays] at h
    | .cust 2, h => simp [exTwoWays] at h
    | .cust 3, h => simp [exTwoWays] at h
    | .cust (n + 4), h => cases h
    | .sink, h => cases h
  no_out_of_sink := rfl

theorem exThreshold_lightest {w : ℚ} (hw : w ≤ 0) : Lightest exTwoWays (exThreshold w).weight w := by
  refine ⟨⟨(.source, .cust 1), by decide, by simp [exThreshold]⟩, ?_⟩
  intro e _
  simp only [exThreshold]
  split
  · exact hw
  · exact le_refl _

/-- The example that stops at the first route. -/
abbrev exLazy : Cspy := exThreshold (-9 / 10000)

/-- The limits of the example. -/
def exLazyLimits : Res := (exLazy.formulate.toOption).getD {}

theorem exLazy_form : exLazy.formulate = .ok exLazyLimits := by
  unfold exLazyLimits
  cases h : exLazy.formulate with
  | ok m => rfl
  | error e =>
    have : exLazy.formulate.toOption ≠ none := by decide +kernel
    rw [h] at this
    exact absurd rfl this

/-- The better route. -/
def exLazyRoute : List Node := [.source, .cust 2, .cust 3, .sink]

theorem exLazyRoute_simple : IsSimpleRoute exLazy.G exLazyRoute := by
  refine ⟨⟨[.cust 2, .cust 3], rfl, ?_, (along_iff _ _).2 ?_⟩, by decide⟩
  · intro v hv
    have : v = .cust 2 ∨ v = .cust 3 := by simpa using hv
    rcases this with rfl | rfl
    · exact ⟨⟨2, rfl⟩, by decide⟩
    · exact ⟨⟨3, rfl⟩, by decide⟩
  · intro u v h
    have : (u, v) = (.source, .cust 2) ∨ (u, v) = (.cust 2, .cust 3) ∨ (u, v) = (.cust 3, .sink) := by
      simpa [exLazyRoute, consecutive] using h
    rcases this with h | h | h <;> cases h <;> decide

theorem exLazyRoute_within : WithinLimits exLazy exLazyLimits exLazyRoute := limitsHold_iff.1 (by decide +kernel)

theorem exLazy_solve : exLazy.solveThr exTwoWays true [.cust 1, .cust 2, .cust 3] (lazyLabels exLazy) [] {} = .ok ([], false, {}) :=
  Solve.eq_ok_of_toOption (by decide +kernel)

/-- The hypotheses of `C78_no_route_left_partial` hold. -/
example : -(1 / 1000 * (legs exLazyRoute : ℚ)) ≤ legSum exLazy.weight exLazyRoute :=
  C78_no_route_left_partial exTwoWays_wf (fun _ h => h) (exThreshold_lightest (by norm_num)) (lazyLabels_sound _) (lazyLabels_stops _)
    exLazy_form (fun c hc => by cases hc) exLazy_solve exLazyRoute_simple exLazyRoute_within

/-- **C78**, why not `-1/1000`: with the threshold, pricing with cspy can add nothing although a route has a reduced cost below
`-1/1000`; without it (`C73_no_route_left_partial`) it would add one. -/
theorem C78_threshold_counterexample : ∃ (q : Cspy) (full : Net) (t : ℚ) (m : Res) (keys : List Node) (oracle : ThrOracle)
    (s : CspyStats) (r : List Node), WellFormed q.G ∧ (∀ e ∈ q.G.edges, e ∈ full.edges) ∧ Lightest full q.weight t ∧
      (∀ thr, CspySound q (fun m e => oracle m e thr)) ∧ CspyStops q oracle ∧ q.formulate = .ok m ∧
      q.solveThr full true keys oracle [] {} = .ok ([], false, s) ∧ IsSimpleRoute q.G r ∧ WithinLimits q m r ∧
      legSum q.weight r < -(1 / 1000) ∧ ∀ cols, q.solve true keys (fun m e => oracle m e none) [] ≠ .ok (cols, false) := by
  refine ⟨exLazy, exTwoWays, _, exLazyLimits, _, _, _, exLazyRoute, exTwoWays_wf, fun _ h => h, exThreshold_lightest (by norm_num),
    lazyLabels_sound _, lazyLabels_stops _, exLazy_form, exLazy_solve, exLazyRoute_simple, exLazyRoute_within, by decide +kernel, ?_⟩
  intro cols h
  have : (exLazy.solve true [.cust 1, .cust 2, .cust 3] (fun m e => lazyLabels exLazy m e none) []).toOption.map Prod.snd = some true := by
    decide +kernel
  rw [h] at this
  cases this

/-- The first search has no threshold: a labelling algorithm that stops early is of use only for elementary paths. -/
example : withoutStats ((exThreshold (-9 / 10000)).solveThr exTwoWays true [.cust 1, .cust 2, .cust 3] (lazyLabels exLazy) [] {}) =
    exLazy.solve true [.cust 1, .cust 2, .cust 3] (fun m e => lazyLabels exLazy m e (if e then some (-9 / 10000) else none)) [] :=
  C78_threshold (exThreshold_lightest (by norm_num))

/-! ## End to end -/

/-- The least reduced cost of an arc, if there is one. -/
def leastWeight (q : Cspy) : Option ℚ :=
  match q.G.edges.map (fun e => q.weight e.1 e.2) with
  | [] => none
  | x :: xs => some (xs.foldl min x)

/-- The world with a labelling algorithm that stops early. -/
noncomputable def lazyWorld (pts : List (MVar → ℚ)) (dual : LP MVar → Node → ℚ) : World :=
  { lpWorld pts dual [] with cspy := fun _ q m e => q.lazyLabels m e (if e then leastWeight q else none) }

theorem lazyWorld_ok (pts : List (MVar → ℚ)) (dual : LP MVar → Node → ℚ) :
    WorldOk (lazyWorld pts dual) ∧ ∀ t q, WellFormed q.G → StopsEarly q ((lazyWorld pts dual).cspy t q) := by
  refine ⟨⟨exWorld_ok.cw, fun _ q m e => lazyLabels_sound q _ m e, fun _ => masterOf_sound _ _, exWorld_ok.paths, routePath_ok⟩, ?_⟩
  intro t q _
  refine ⟨q.lazyLabels, lazyLabels_stops q, fun m e => ⟨_, rfl, fun h => by rw [h]; rfl, ?_⟩⟩
  intro t ht a ha
  cases e with
  | false => cases ht
  | true =>
    simp only [if_true, leastWeight] at ht
    have hmem : q.weight a.1 a.2 ∈ q.G.edges.map (fun e => q.weight e.1 e.2) := List.mem_map.2 ⟨a, ha, rfl⟩
    generalize q.G.edges.map (fun e => q.weight e.1 e.2) = l at ht hmem
    cases l with
    | nil => cases ht
    | cons x xs =>
      simp only [Option.some.injEq] at ht
      obtain ⟨_, h2, h3⟩ := foldl_min_spec xs x
      rw [← ht]
      rcases List.mem_cons.1 hmem with h | h
      · rw [h]; exact h2
      · exact h3 _ h

/-- As `exBoundWorld`, with a labelling algorithm that stops early. -/
noncomputable def exLazyWorld : World :=
  lazyWorld [picking [.elem 3], picking [.num 1, .num 2]] (fun prob _ => if hasColumn (.elem 3) prob then 12 else 23)

/-- Elementary paths are asked for. -/
def exLazyArgs : SolveArgs := { exBoundArgs with elementary := true }

/-- All hypotheses of `C78_bound_partial` hold for the example. -/
example : ∃ K, ∀ S n, SolvesWithin exPlan K S → (∀ e ∈ S.routes, legs e.2 ≤ n) →
    24 ≤ (userCosts exPlan S).sum + n / 1000 * S.routes.length := by
  have hok : onTheWay exLazyWorld exLazyArgs 5 exPlan (fun M cols a => dualsProve M cols a && columnsPriced M cols a) = true := by
    decide +kernel
  have hleft : leftBehind exLazyWorld exLazyArgs 5 exPlan = some ([46, 24], 0, 2) := by decide +kernel
  unfold leftBehind at hleft
  split at hleft
  · cases hleft
  rename_i o ho
  split at hleft
  · rename_i o' hsolve
    simp only [Option.some.injEq, Prod.mk.injEq] at hleft
    obtain ⟨K, bound, _, hb, hS⟩ := C78_bound_partial (a := exLazyArgs) (lazyWorld_ok _ _).1 (lazyWorld_ok _ _).2
      exPlan_capacitated.deliveries exPlan_nonnegative (exPlan_capacitated.cspyData) (by simp [exPlan]) rfl (by decide +kernel)
      (Or.inl (by decide +kernel)) rfl rfl rfl rfl rfl
      (by decide) ho (by
        intro P' P'' fuel cols m stm h1 h2 ht _
        have := onTheWay_ok hok ho h1 h2 ht
        simp only [Bool.and_eq_true] at this
        exact ⟨dualsProve_ok this.1, columnsPriced_ok this.2⟩) hsolve (Or.inl ⟨rfl, by rw [hleft.2.1]; decide⟩) (Or.inl rfl) (fun _ => rfl)
    rw [hleft.1] at hb
    simp only [List.getLast?_cons_cons, List.getLast?_singleton, Option.some.injEq] at hb
    subst hb
    refine ⟨K, fun S n hSol hn => ?_⟩
    have := hS S n hSol (fun hf => (by cases hf)) hn
    have hp : exPlan.dropPenalty = 0 := rfl
    rw [hp] at this
    linarith
  · cases hleft

end Vrpy
