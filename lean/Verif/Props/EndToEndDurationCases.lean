import Verif.Props.CspyBoundCases
import Verif.Props.EndToEndDuration

/-!
# Examples and counterexamples for C62 without time windows
-/

namespace Vrpy

open Spec

/-- `exPlan` with travel times: 10 from and to the depots, 1 between the customers; serving a customer takes `s`, a route may
take `d`. -/
def exTravel (s : ℚ) (d : Nat) : Vrp where
  G := {
    nodes := [.source, .cust 1, .cust 2, .sink]
    nd := fun v => if v.isDepot then {} else { demand := some 2, serviceTime := some s }
    succ := fun u => match u with
      | .source => [.cust 1, .cust 2]
      | .cust 1 => [.cust 2, .sink]
      | .cust 2 => [.sink]
      | _ => []
    ed := fun u v => {
      cost := some (.scalar (if u = .source ∨ v = .sink then 10 else 1))
      time := some (if u = .source ∨ v = .sink then 10 else 1) } }
  loadCapacity := .one (.int 5)
  fixedCost := .one 3
  numStops := .int 2
  numVehicles := .one 2
  duration := .int d

theorem exTravel_capacitated (s : ℚ) (d : Nat) : Capacitated (exTravel s d) where
  wf := by
    refine ⟨by show [Node.source, .cust 1, .cust 2, .sink].Nodup; decide, ?_, ?_⟩
    · intro u; simp only [exTravel]; split <;> decide
    · intro u v hv
      simp only [exTravel] at hv ⊢
      split at hv <;> simp at hv <;> (try rcases hv with rfl | rfl) <;> decide
  customer := ⟨1, by show _ ∈ [Node.source, .cust 1, .cust 2, .sink]; decide⟩
  costs := fun _ u v _ => ⟨_, Or.inl rfl⟩
  demand := by
    intro v _
    simp only [userDemand, exTravel]
    split <;> simp
  service := ⟨rfl, rfl⟩
  timeWindows := rfl
  pickupDelivery := rfl
  distributionCollection := rfl
  periodic := rfl
  oneCapacity := fun _ => le_refl 1

theorem exTravel_symmetric (s : ℚ) (d : Nat) : SymmetricUserTimes (exTravel s d).G where
  sym := by
    intro u v
    by_cases h : UserArc (exTravel s d).G u v ∧ UserArc (exTravel s d).G v u
    · exfalso
      obtain ⟨h1, h2⟩ := h
      have key : ∀ u v, UserArc (exTravel s d).G u v → u = .source ∨ (u = .cust 1 ∧ v = .cust 2) ∨ v = .sink := by
        rintro u v (h | h | h | h)
        · simp only [exTravel] at h
          split at h <;> simp at h <;> (try rcases h with rfl | rfl) <;> simp
        · exact Or.inl h.1
        · exact Or.inr (Or.inr h.1)
        · exact Or.inl h.1
      have key2 : ∀ u v, UserArc (exTravel s d).G u v → v ≠ .source ∧ u ≠ .sink := by
        rintro u v (h | ⟨rfl, n, rfl⟩ | ⟨rfl, n, rfl⟩ | ⟨rfl, rfl⟩)
        · simp only [exTravel] at h
          split at h <;> simp at h <;> (try rcases h with rfl | rfl) <;> simp_all
        all_goals simp
      have a1 := key2 _ _ h1
      have a2 := key2 _ _ h2
      rcases key _ _ h1 with rfl | ⟨rfl, rfl⟩ | rfl
      · exact a2.1 rfl
      · rcases key _ _ h2 with h | h | h <;> simp at h
      · exact a2.2 rfl
    · exact Or.inr h
  depot := by
    intro n hn
    simp [exTravel] at hn
    rcases hn with rfl | rfl <;> simp [userTime, exTravel]

theorem exTravel_fits {s : ℚ} {d : Nat} (h : 20 + s ≤ d) : RoundTripsFit (exTravel s d) := by
  intro n hn c hc _
  have hc' : (d : ℚ) = c := by
    simp only [exTravel, PyVal.limit] at hc
    simpa using hc
  rw [← hc']
  simp [exTravel] at hn
  rcases hn with rfl | rfl <;> simp [userDuration, legSum, routeOf, userTime, userService, exTravel, Node.isDepot] <;> linarith

theorem exTravel_noService (d : Nat) : NoServiceTimes (exTravel 0 d).G := by
  intro v _
  simp only [exTravel]
  split <;> rfl

theorem exTravel_initial {s : ℚ} {d : Nat} (h : 20 + s ≤ d) : ∀ r ∈ exArgs.initialRoutes, r.Nodup ∧ InTime (exTravel s d) r := by
  intro r hr
  simp only [exArgs, List.mem_cons, List.not_mem_nil, or_false] at hr
  rcases hr with rfl | rfl
  · exact ⟨by decide, fun _ => exTravel_fits h 1 (by show _ ∈ [Node.source, .cust 1, .cust 2, .sink]; decide)⟩
  · exact ⟨by decide, fun _ => exTravel_fits h 2 (by show _ ∈ [Node.source, .cust 1, .cust 2, .sink]; decide)⟩

/-- All hypotheses of `C62_capacitated_partial` hold for pricing by cspy; the route found takes 21 of 21. -/
example : WorldOk exWorld ∧ exArgs.cspy = true ∧ NoServiceTimes (exTravel 0 21).G ∧ CapacitatedData (exTravel 0 21) ∧
    SymmetricUserTimes (exTravel 0 21).G ∧ RoundTripsFit (exTravel 0 21) ∧
    (∀ r ∈ exArgs.initialRoutes, r.Nodup ∧ InTime (exTravel 0 21) r) ∧
    planOf exWorld exArgs 5 (exTravel 0 21) = .ok (some ⟨[(1, routeOf [.cust 1, .cust 2])], [(1, 0)], []⟩) ∧
    userDuration (exTravel 0 21).G (routeOf [.cust 1, .cust 2]) = 21 :=
  ⟨exWorld_ok, rfl, exTravel_noService _, (exTravel_capacitated _ _).toCapacitatedData, exTravel_symmetric _ _, exTravel_fits (by norm_num),
    exTravel_initial (by norm_num), Solve.eq_ok_of_toOption (by decide +kernel), by decide +kernel⟩

/-- With one unit of time less the route is not found. -/
example : planOf exWorld exArgs 5 (exTravel 0 20) =
    .ok (some ⟨[(1, routeOf [.cust 1]), (2, routeOf [.cust 2])], [(1, 0), (2, 0)], []⟩) :=
  Solve.eq_ok_of_toOption (by decide +kernel)

/-- All hypotheses of `C62_capacitated_dive_partial` hold, and diving ends with the round trips. -/
example : let w := diveWorld [choosing [1, 2]] exDual []
    WorldOk w ∧ DiveOk w.toEnv ∧ NoServiceTimes (exTravel 0 21).G ∧ Capacitated (exTravel 0 21) ∧
    SymmetricUserTimes (exTravel 0 21).G ∧ RoundTripsFit (exTravel 0 21) ∧
    (∀ r ∈ exArgs.initialRoutes, r.Nodup ∧ InTime (exTravel 0 21) r) ∧
    planOf w { exArgs with dive := true } 5 (exTravel 0 21) =
      .ok (some ⟨[(1, routeOf [.cust 1]), (2, routeOf [.cust 2])], [(1, 0), (2, 0)], []⟩) :=
  ⟨diveWorld_ok _ _ _, diveWorld_dive _ _ _, exTravel_noService _, exTravel_capacitated _ _, exTravel_symmetric _ _,
    exTravel_fits (by norm_num), exTravel_initial (by norm_num), Solve.eq_ok_of_toOption (by decide +kernel)⟩

/-- **C62**, counterexample for service times: every single customer can be visited within 25 (it takes 23), but without time windows and
collection pricing by cspy does not count service times: the reported route takes 27. -/
theorem C62_service_counterexample :
    WorldOk exWorld ∧ Capacitated (exTravel 3 25) ∧ SymmetricUserTimes (exTravel 3 25).G ∧ RoundTripsFit (exTravel 3 25) ∧
    (∀ r ∈ exArgs.initialRoutes, r.Nodup ∧ InTime (exTravel 3 25) r) ∧
    planOf exWorld exArgs 5 (exTravel 3 25) = .ok (some ⟨[(1, routeOf [.cust 1, .cust 2])], [(1, 0)], []⟩) ∧
    ¬ Within (exTravel 3 25).duration.limit (userDuration (exTravel 3 25).G (routeOf [.cust 1, .cust 2])) := by
  refine ⟨exWorld_ok, exTravel_capacitated _ _, exTravel_symmetric _ _, exTravel_fits (by norm_num), exTravel_initial (by norm_num),
    Solve.eq_ok_of_toOption (by decide +kernel), ?_⟩
  intro h
  exact absurd (h 25 rfl (by norm_num)) (by decide +kernel)

/-- **C62**, counterexample for greedy pricing: no service times, every single customer can be visited within 20, but a greedy route
that has reached `num_stops` drives to Sink without a look at the time: the reported route takes 21. -/
theorem C62_greedy_counterexample :
    WorldOk exGreedyWorld ∧ Capacitated (exTravel 0 20) ∧ NoServiceTimes (exTravel 0 20).G ∧ SymmetricUserTimes (exTravel 0 20).G ∧
    RoundTripsFit (exTravel 0 20) ∧ exGreedyArgs.initialRoutes = exArgs.initialRoutes ∧
    (∀ r ∈ exGreedyArgs.initialRoutes, r.Nodup ∧ InTime (exTravel 0 20) r) ∧
    planOf exGreedyWorld exGreedyArgs 5 (exTravel 0 20) = .ok (some ⟨[(1, routeOf [.cust 1, .cust 2])], [(1, 0)], []⟩) ∧
    ¬ Within (exTravel 0 20).duration.limit (userDuration (exTravel 0 20).G (routeOf [.cust 1, .cust 2])) := by
  refine ⟨(cspyWorld_ok _ _).1, exTravel_capacitated _ _, exTravel_noService _, exTravel_symmetric _ _, exTravel_fits (by norm_num), rfl,
    exTravel_initial (by norm_num), Solve.eq_ok_of_toOption (by decide +kernel), ?_⟩
  intro h
  exact absurd (h 20 rfl (by norm_num)) (by decide +kernel)

/-! ## Pricing by LP -/

/-- The graph searched for `exTravel 3 27`. -/
def timedNet : Net := { lpNet with
  service := fun v => if v.isDepot then 0 else 3
  time := fun u v => if u = .source ∧ v = .sink then 0 else if u = .source ∨ v = .sink then 10 else 1 }

theorem timedNet_wf : WellFormed timedNet := ⟨lpNet_wf.nodes_nodup, lpNet_wf.succ_nodup, lpNet_wf.edge_mem, lpNet_wf.source_mem,
  lpNet_wf.sink_mem, lpNet_wf.no_into_source, lpNet_wf.no_out_of_sink⟩

/-- The two pricing problems. -/
def timedPricing (second : Bool) : PricingLP :=
  { lpPricing second with
    G := timedNet
    duration := some 27 }

theorem timedPoint_optimal (b : Bool) : ((timedPricing b).lp 5).Optimal lpPoint := by
  refine optimal_of_routes (q := timedPricing b) timedNet_wf rfl rfl ?_ rfl rfl ?_ ?_ rfl ?_ ?_ ?_
  · refine ⟨?_, ?_, fun h => (by cases h)⟩
    · show ∀ v ∈ timedNet.nodes, 0 ≤ timedNet.demand v
      decide +kernel
    · intro u v _
      show 0 ≤ timedNet.time u v + timedNet.service u
      simp only [timedNet]
      exact add_nonneg (ite_nonneg' (le_refl _) (ite_nonneg' (by norm_num) (by norm_num))) (ite_nonneg' (le_refl _) (by norm_num))
  · refine noNegativeCycle_brute timedNet_wf ?_
    revert b
    decide +kernel
  · intro _
    revert b
    decide +kernel
  · refine feasible_of _ _ ?_
    revert b
    decide +kernel
  · revert b
    decide +kernel
  · revert b
    decide +kernel

noncomputable def exTravelWorld : World :=
  { exLpWorld with pricing := fun _ => knownSolver [((timedPricing false).lp 5, lpPoint), ((timedPricing true).lp 5, lpPoint)] }

theorem exTravelWorld_ok : LpWorldOk PositiveCycles exTravelWorld :=
  have hk := knownSolver_ok (known := [((timedPricing false).lp 5, lpPoint), ((timedPricing true).lp 5, lpPoint)])
    (by
      intro k hk
      simp only [List.mem_cons, List.not_mem_nil, or_false] at hk
      rcases hk with rfl | rfl
      · exact timedPoint_optimal false
      · exact timedPoint_optimal true)
  { exLpWorld_ok with
    sound := fun _ => hk.2
    exact := fun _ => hk.1 }

theorem exTravel_nonnegative {s : ℚ} (hs : 0 ≤ s) (d : Nat) : NonnegativeData (exTravel s d) where
  service := by
    intro v _
    simp only [exTravel]
    split <;> simp [hs]
  time := by
    intro u v _
    simp only [exTravel, Option.getD_some]
    split <;> norm_num
  cost := by
    intro k u v _
    simp only [userArcCost, exTravel, userCost, userFixedCost]
    have h : ∀ x : ℚ, (x = 1 ∨ x = 10 ∨ x = 0 ∨ x = 3) → 0 ≤ x := by rintro x (rfl | rfl | rfl | rfl) <;> norm_num
    refine ite_nonneg' (add_nonneg (h _ ?_) (h _ ?_)) (ite_nonneg' (le_refl _) (add_nonneg (by norm_num) (h _ ?_)))
    all_goals split <;> simp

/-- All hypotheses of `C62_capacitated_partial` hold for pricing by LP, with service times; the route found takes 27 of 27. -/
example : LpWorldOk PositiveCycles exTravelWorld ∧ exLpArgs.cspy = false ∧ NonnegativeData (exTravel 3 27) ∧ CapacitatedData (exTravel 3 27) ∧
    SymmetricUserTimes (exTravel 3 27).G ∧ RoundTripsFit (exTravel 3 27) ∧
    (∀ r ∈ exLpArgs.initialRoutes, r.Nodup ∧ InTime (exTravel 3 27) r) ∧
    planOf exTravelWorld exLpArgs 5 (exTravel 3 27) = .ok (some ⟨[(1, routeOf [.cust 1, .cust 2])], [(1, 0)], []⟩) ∧
    userDuration (exTravel 3 27).G (routeOf [.cust 1, .cust 2]) = 27 :=
  ⟨exTravelWorld_ok, rfl, exTravel_nonnegative (by norm_num) _, (exTravel_capacitated _ _).toCapacitatedData, exTravel_symmetric _ _,
    exTravel_fits (by norm_num), exTravel_initial (by norm_num), Solve.eq_ok_of_toOption (by decide +kernel), by decide +kernel⟩

end Vrpy
