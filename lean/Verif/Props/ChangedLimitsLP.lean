import Verif.Props.ResolveCases
import Verif.Props.EndToEndAnyLP

/-!
# C37: changing limits between calls to `solve()`: the duration, and LP pricing
-/

namespace Vrpy

open Spec

/-- The object keeps the times of the user. -/
structure KeptTimes (P0 X : Vrp) : Prop where
  service : ∀ v ∈ X.G.nodes, userService X.G v = userService P0.G v
  time : ∀ u v, v ∈ X.G.succ u → userTime X.G u v = userTime P0.G u v
  direct : Node.sink ∈ P0.G.succ .source → Node.sink ∈ X.G.succ .source

theorem keptTimes_create {P0 : Vrp} {o : Obj} (hP : Capacitated P0) (hc : Obj.create P0 = .ok o) : KeptTimes P0 o.P := by
  obtain ⟨G, hG, rfl⟩ := create_ok hc
  obtain ⟨_, _, _, _, _, _, _, _, g9, g10, g11, g12⟩ := C01_constructor_completes _ _ hP.wf hG
  refine ⟨fun v _ => ?_, fun u v hv => ?_, fun h0 => (g10 _).subset h0⟩
  · show (G.nd v).serviceTime.getD 0 = _
    rw [g9]
    rfl
  · show (if v ∈ G.succ u then (G.ed u v).time.getD 0 else 0) = if v ∈ P0.G.succ u then (P0.G.ed u v).time.getD 0 else 0
    have hv' : v ∈ G.succ u := hv
    rw [if_pos hv']
    split
    · rename_i h0
      rw [g11 u v h0]
    · rename_i h0
      rw [(g12 u v hv' h0).2.2]
      rfl

theorem KeptTimes.call {P0 X P'' : Vrp} (hP : Capacitated P0) (h : Kept P0 X) (ht : KeptTimes P0 X) {w : World} {a : SolveArgs}
    (ha : a.preassignments = [])
    (hs : X.startSolve w.dist a.strategy a.cspy a.initialRoutes a.preassignments = .ok P'') (rs : List (List Node)) :
    KeptTimes P0 { P'' with initialRoutes := rs } := by
  obtain ⟨K, N, N3, S⟩ := h.searched hP ha hs
  have hG := S.graph
  generalize hPG : P''.G = PG at hG
  subst hG
  refine ⟨fun v hv => ?_, fun u v hv => ?_, fun _ => (S.depots (h.fields.2.1.trans hP.timeWindows)).2⟩
  · simp only at hv ⊢
    have hv' : v ∈ N3.nodes := hv
    show N3.service v = _
    rw [S.nodes] at hv'
    rw [S.same.service, S.service v hv', ← ht.service v (by rw [← S.userNodes]; exact hv')]
    rfl
  · simp only at hv ⊢
    have hv' : v ∈ N3.succ u := hv
    have hN := S.same.succ u v hv'
    show (if v ∈ N3.succ u then N3.time u v else 0) = _
    rw [if_pos hv', S.same.time, S.time u v hN]
    split
    · rename_i h0
      rw [← ht.time u v h0, userTime, if_pos h0]
    · rename_i h0
      have hu := S.userArcs u v hN
      have hmem := S.wf.edge_mem u v hN
      rw [S.userNodes] at hmem
      rcases hu with h1 | ⟨rfl, n, rfl⟩ | ⟨rfl, n, rfl⟩ | ⟨rfl, rfl⟩
      · exact absurd h1 h0
      · exact absurd (h.connected n hmem.2).1 h0
      · exact absurd (h.connected n hmem.1).2 h0
      · rw [userTime, if_neg (fun h1 => h0 (ht.direct h1))]

theorem keptTimes_changes {P0 : Vrp} {o o' : Obj} (hP : Capacitated P0)
    (htypes : P0.mixedFleet = true → P0.loadCapacity.toList ≠ [])
    (hc : Obj.create P0 = .ok o) (h : Changes o o') : KeptTimes P0 o'.P := by
  induction h with
  | refl => exact keptTimes_create hP hc
  | call w a fuel h0 ha hs ih =>
    obtain ⟨P, hP1, hP2, _⟩ := solve_object hs
    rw [hP2]
    exact ih.call hP (kept_changes hP htypes hc h0).1 ha hP1 _
  | set ns lc d _ hlc ih =>
    obtain ⟨k1, k2, k3⟩ := ih
    exact ⟨k1, k2, k3⟩

theorem Kept.arc {P0 X : Vrp} (h : Kept P0 X) {u v : Node} (hu : u ∈ X.G.nodes) (hv : v ∈ X.G.nodes) (huv : UserArc X.G u v) :
    v ∈ X.G.succ u ∨ (u = .source ∧ v = .sink) := by
  rcases huv with h1 | ⟨rfl, n, rfl⟩ | ⟨rfl, n, rfl⟩ | h1
  · exact Or.inl h1
  · exact Or.inl (h.connected n hv).1
  · exact Or.inl (h.connected n hu).2
  · exact Or.inr h1

theorem KeptTimes.arcTime {P0 X : Vrp} (h : Kept P0 X) (ht : KeptTimes P0 X) {u v : Node} (hu : u ∈ X.G.nodes) (hv : v ∈ X.G.nodes)
    (huv : UserArc X.G u v) : userTime X.G u v = userTime P0.G u v := by
  by_cases h0 : v ∈ X.G.succ u
  · exact ht.time u v h0
  · rcases h.arc hu hv huv with h1 | ⟨rfl, rfl⟩
    · exact absurd h1 h0
    · rw [userTime, userTime, if_neg h0, if_neg (fun h1 => h0 (ht.direct h1))]

/-- Routes take as long as in the user's data. -/
theorem KeptTimes.duration {P0 X : Vrp} (h : Kept P0 X) (ht : KeptTimes P0 X) {r : List Node} (hr : ∀ v ∈ r, v ∈ X.G.nodes)
    (hal : Along (UserArc X.G) r) : userDuration X.G r = userDuration P0.G r := by
  have hl : ∀ r : List Node, (∀ v ∈ r, v ∈ X.G.nodes) → Along (UserArc X.G) r →
      legSum (userTime X.G) r = legSum (userTime P0.G) r := by
    intro r
    induction r with
    | nil => intro _ _; rfl
    | cons u r ih =>
      cases r with
      | nil => intro _ _; rfl
      | cons v r =>
        intro hr hal
        simp only [legSum]
        rw [ih (fun x hx => hr x (List.mem_cons_of_mem _ hx)) hal.2,
          ht.arcTime h (hr u (by simp)) (hr v (by simp)) hal.1]
  unfold userDuration
  rw [hl r hr hal, List.map_congr_left (fun v hv => ht.service v (hr v hv))]

theorem KeptTimes.forward {P0 X : Vrp} (h : Kept P0 X) (ht : KeptTimes P0 X) (hT : TimesForward P0) : TimesForward X where
  service := fun v hv => by
    have := ht.service v hv
    unfold userService at this
    rw [this]
    exact hT.service v (by rw [← h.nodes]; exact hv)
  time := fun u v hv => by
    have := ht.time u v hv
    unfold userTime at this
    rw [if_pos hv] at this
    rw [this]
    split
    · exact hT.time u v (by assumption)
    · exact le_refl _

theorem KeptTimes.symmetric {P0 X : Vrp} (h : Kept P0 X) (ht : KeptTimes P0 X) (hsym : SymmetricUserTimes P0.G) :
    SymmetricUserTimes X.G where
  sym := by
    have into : ∀ u, ¬ UserArc X.G u .source := by
      rintro u (h1 | ⟨_, n, h1⟩ | ⟨h1, _⟩ | ⟨_, h1⟩)
      · exact h.accepted.no_into_source u h1
      all_goals cases h1
    have out : ∀ v, ¬ UserArc X.G .sink v := by
      rintro v (h1 | ⟨h1, _⟩ | ⟨_, n, h1⟩ | ⟨h1, _⟩)
      · exact h.accepted.no_out_of_sink v h1
      all_goals cases h1
    intro u v
    by_cases hb : v ∈ X.G.succ u ∧ u ∈ X.G.succ v
    · left
      rw [ht.time u v hb.1, ht.time v u hb.2]
      rcases hsym.sym u v with h1 | h1
      · exact h1
      · exact absurd ⟨h.arcs u v hb.1, h.arcs v u hb.2⟩ h1
    · right
      rintro ⟨h1, h2⟩
      refine hb ⟨?_, ?_⟩
      · rcases h1 with h1 | ⟨rfl, _⟩ | ⟨rfl, _⟩ | ⟨rfl, _⟩
        · exact h1
        · exact absurd h2 (into _)
        · exact absurd h2 (out _)
        · exact absurd h2 (into _)
      · rcases h2 with h2 | ⟨rfl, _⟩ | ⟨rfl, _⟩ | ⟨rfl, _⟩
        · exact h2
        · exact absurd h1 (into _)
        · exact absurd h1 (out _)
        · exact absurd h1 (into _)
  depot := fun n hn => by
    obtain ⟨h1, h2⟩ := h.connected n hn
    rw [ht.time _ _ h1, ht.time _ _ h2]
    exact hsym.depot n (by rw [← h.nodes]; exact hn)

/-- The problem with the present limits. -/
def Spec.withLimits (P0 X : Vrp) : Vrp :=
  { P0 with
    numStops := X.numStops
    loadCapacity := X.loadCapacity
    duration := X.duration }

/-- **C37 (partial), LP pricing.**  As `C37_changed_limits_partial` for pricing by LP, whatever feasible points the solver returns, with
or without diving: after any history of calls and changes every route respects the present `num_stops` and `load_capacity`, if the
initial routes at hand are within the present `num_stops`.  (With cycles of reduced cost 0 customers may be left out, as in a first run:
`C55_lp_counterexample`.) -/
theorem C37_lp_partial {w : World} {a : SolveArgs} {fuel : Nat} {P0 : Vrp} {o o1 o2 : Obj} (hw : LpSound w)
    (hcw : ∀ x, (w.cw x).Valid) (hdive : a.dive = true → DiveOk w.toEnv)
    (hP : Capacitated P0) (htypes : P0.mixedFleet = true → P0.loadCapacity.toList ≠ [])
    (hc : Obj.create P0 = .ok o) (hist : Changes o o1)
    (hone : P0.mixedFleet = false → (userCapacities o1.P.loadCapacity).length ≤ 1)
    (hpre : a.preassignments = []) (hheur : a.heuristicOnly = false) (hcspy : a.cspy = false)
    (hinit : ∀ r ∈ if a.initialRoutes ≠ [] then a.initialRoutes else o1.P.initialRoutes,
      r.Nodup ∧ WithinStops o1.P.numStops.stops (stops r).length)
    (h : o1.solve w a fuel = .ok (some o2)) :
    ∃ K, (P0.mixedFleet = false → K = 1) ∧
      RoutesFor (withLimits P0 o1.P) K (fun k r => ∃ mid, r = routeOf mid ∧ WithinStops o1.P.numStops.stops mid.length ∧
        WithinCapacity (userCapacities o1.P.loadCapacity) k (mid.map (userDemand P0.G)).sum) o2.solution ∧
      (a.dive = false → NothingTwice (withLimits P0 o1.P) o2.solution) := by
  obtain ⟨hk, hold⟩ := kept_changes hP htypes hc hist
  obtain ⟨k1, k2, k3, k4, k5, k6, k7, k8⟩ := hk.fields
  unfold Obj.solve at h
  split at h
  · cases h
  rename_i P' hstart
  rw [hheur] at h
  simp only [Bool.false_eq_true, if_false] at h
  obtain ⟨K, N, N3, S⟩ := hk.searched hP hpre hstart
  have hinit' : P'.initialRoutes = if a.initialRoutes ≠ [] then a.initialRoutes else o1.P.initialRoutes := by
    obtain ⟨_, _, _, _, _, T⟩ := startSolve_prepared hstart
    rw [T.result]
    exact (prepared_fields).2.1
  have hcap := hk.capacitated hP (fun hm => hone (by rw [← k6]; exact hm))
  obtain ⟨_, h2, h3, _⟩ := routes_of_searched hw hcw hdive hcap.toCapacitatedData S hcspy (by rw [hinit']; exact hinit)
    (fun h0 => hold (by rw [← k5]; exact h0)) h
  refine ⟨K, fun hm => S.typesOne (k6.trans hm), ⟨?_, ?_, ?_⟩, fun hd => ?_⟩
  · intro i r hr
    obtain ⟨mid, q1, q2, q3, q4, k, q5, q6, mid', q7, q8, q9⟩ := h2.routes i r hr
    refine ⟨mid, q1, q2, fun v hv => ⟨(q3 v hv).1, ?_⟩, ?_, k, q5, q6, mid', q7, q8, ?_⟩
    · show v ∈ P0.G.nodes
      rw [← hk.nodes]
      exact (q3 v hv).2
    · exact (along_iff _ _).2 (fun x y he => UserArc.kept hk ((along_iff _ _).1 q4 x y he))
    · have he : mid' = mid := by
        rw [q1] at q7
        simp only [routeOf, List.cons.injEq, true_and] at q7
        exact (List.append_cancel_right q7).symm
      rw [he] at q9 ⊢
      rw [← List.map_congr_left (fun v hv => by
        obtain ⟨⟨n, rfl⟩, hn⟩ := q3 v hv
        exact hk.demand n hn)]
      exact q9
  · intro v hv
    obtain ⟨q1, q2⟩ := h2.dropped v hv
    exact ⟨q1, by show v ∈ P0.G.nodes; rw [← hk.nodes]; exact q2⟩
  · intro h0
    exact h2.penalty (by rw [k5]; exact h0)
  · have h4 := h3 hd hcap.periodic
    refine ⟨h4.once, h4.dropped, fun k n hkn => ?_⟩
    have := h4.fleet k n (by rw [hk.fleet]; exact hkn)
    exact ⟨this.1, fun hu => this.2 (by rw [k8]; exact hu)⟩

/-- **C37 (partial), the duration.**  After any history of calls and changes, a call without greedy pricing returns only routes that take
no longer than the present `duration`, if the initial routes at hand do (`C37_duration_counterexample`), round trips do (they are not
checked, `C62_counterexample`), travel times are symmetric (for the savings heuristic, C09), and pricing is by LP, whatever feasible
points the solver returns, or by cspy and there are no service times (`C62_service_counterexample`). -/
theorem C37_duration_partial {w : World} {a : SolveArgs} {fuel : Nat} {P0 : Vrp} {o o1 o2 : Obj}
    (hw : WorldOk w ∧ a.cspy = true ∧ a.dive = false ∧ NoServiceTimes P0.G ∨
      LpSound w ∧ (∀ x, (w.cw x).Valid) ∧ a.cspy = false ∧ (a.dive = true → DiveOk w.toEnv) ∧ TimesForward P0)
    (hP : Capacitated P0) (htypes : P0.mixedFleet = true → P0.loadCapacity.toList ≠ [])
    (hc : Obj.create P0 = .ok o) (hist : Changes o o1)
    (hone : P0.mixedFleet = false → (userCapacities o1.P.loadCapacity).length ≤ 1)
    (hsym : SymmetricUserTimes P0.G) (hfit : RoundTripsFit (withLimits P0 o1.P)) (hgreedy : a.greedy = false)
    (hpre : a.preassignments = []) (hheur : a.heuristicOnly = false)
    (hinit : ∀ r ∈ if a.initialRoutes ≠ [] then a.initialRoutes else o1.P.initialRoutes,
      r.Nodup ∧ InTime (withLimits P0 o1.P) r)
    (h : o1.solve w a fuel = .ok (some o2)) :
    ∀ i r, (i, r) ∈ o2.solution.routes → stops r ≠ [] → Within o1.P.duration.limit (userDuration P0.G r) := by
  obtain ⟨hk, hold⟩ := kept_changes hP htypes hc hist
  have ht := keptTimes_changes hP htypes hc hist
  obtain ⟨k1, k2, k3, k4, k5, k6, k7, k8⟩ := hk.fields
  unfold Obj.solve at h
  split at h
  · cases h
  rename_i P' hstart
  rw [hheur] at h
  simp only [Bool.false_eq_true, if_false] at h
  obtain ⟨K, N, N3, S⟩ := hk.searched hP hpre hstart
  have hinit' : P'.initialRoutes = if a.initialRoutes ≠ [] then a.initialRoutes else o1.P.initialRoutes := by
    obtain ⟨_, _, _, _, _, T⟩ := startSolve_prepared hstart
    rw [T.result]
    exact (prepared_fields).2.1
  have hcap := hk.capacitated hP (fun hm => hone (by rw [← k6]; exact hm))
  have hmem : ∀ mid : List Node, (∀ v ∈ mid, v ∈ o1.P.G.nodes) → ∀ v ∈ routeOf mid, v ∈ o1.P.G.nodes := by
    intro mid hm v hv
    simp only [routeOf, List.mem_cons, List.mem_append, List.not_mem_nil, or_false] at hv
    rcases hv with rfl | h1 | rfl
    · exact hk.accepted.source_mem
    · exact hm v h1
    · exact hk.accepted.sink_mem
  have hin : ∀ r ∈ P'.initialRoutes, r.Nodup ∧ (IsSimpleRoute N3 r → InTime o1.P r) := by
    rw [hinit']
    intro r hr
    refine ⟨(hinit r hr).1, fun hs hne => ?_⟩
    obtain ⟨mid, rfl, hm, hal⟩ := id hs.1
    rw [ht.duration hk (hmem mid (fun v hv => by
        rw [← S.userNodes, ← S.nodes]
        exact (hm v hv).2))
      ((along_iff _ _).2 (fun x y he => S.userArcs x y (S.same.succ x y ((along_iff _ _).1 hal x y he))))]
    exact (hinit _ hr).2 hne
  have hfit' : RoundTripsFit o1.P := by
    intro n hn
    rw [ht.duration hk (hmem [.cust n] (by simpa using hn))]
    · exact hfit n (by show _ ∈ P0.G.nodes; rw [← hk.nodes]; exact hn)
    · exact ⟨Or.inl (hk.connected n hn).1, Or.inl (hk.connected n hn).2, trivial⟩
  have hold' : o1.P.dropPenalty = 0 → o1.solution.dropped = [] := fun h0 => hold (by rw [← k5]; exact h0)
  intro i r hir hne
  have hroute : ∃ mid, r = routeOf mid ∧ (∀ v ∈ mid, v ∈ o1.P.G.nodes) ∧ Along (UserArc o1.P.G) r ∧ InTime o1.P r := by
    rcases hw with ⟨hw, hcs, hd, hno⟩ | ⟨hw, hcw, hcs, hd, hT⟩
    · obtain ⟨_, r2, _⟩ := plan_of_columns (F := fun _ => InTime o1.P) hcap.customer hcap.periodic S hw.master hw.path
        (fun P'' cols h1 => initial_inTime hcap.toCapacitatedData S hw.cw (ht.symmetric hk hsym) hfit' hin h1) hd hold'
        (fun rs _ d _ _ _ _ _ => price_inTime hw.cspy hw.paths hcap.toCapacitatedData S hcs hgreedy (fun v hv => by
          have := ht.service v hv
          unfold userService at this
          rw [this]
          exact hno v (by rw [← hk.nodes]; exact hv)) rs d) h
      obtain ⟨mid, q1, _, q3, q4, _, _, _, hF⟩ := r2.routes i r hir
      exact ⟨mid, q1, fun v hv => (q3 v hv).2, q4, hF⟩
    · have r2 := inTime_of_searched hw hcw hd hcap.toCapacitatedData (ht.forward hk hT) (ht.symmetric hk hsym) hfit' hgreedy S hcs hin
        hold' h
      obtain ⟨mid, q1, _, q3, q4, _, _, _, hF⟩ := r2.routes i r hir
      exact ⟨mid, q1, fun v hv => (q3 v hv).2, q4, hF⟩
  obtain ⟨mid, rfl, q3, q4, hF⟩ := hroute
  rw [← ht.duration hk (hmem mid q3) q4]
  exact hF hne

/-! ## Example -/

theorem againWorld_lp : LpSound againWorld where
  master := fun _ => firstSolver_sound
  sound := fun _ _ _ h => (by cases h)
  paths := fun _ => exPathsOracle_ok
  path := fun c p h => pathOf_ok h

theorem exTimed_capacitated : Capacitated exTimed where
  wf := ⟨exPlan_capacitated.wf.1, exPlan_capacitated.wf.2, exPlan_capacitated.wf.3⟩
  customer := exPlan_capacitated.customer
  costs := exPlan_capacitated.costs
  demand := by decide +kernel
  service := by decide +kernel
  timeWindows := rfl
  pickupDelivery := rfl
  distributionCollection := rfl
  periodic := rfl
  oneCapacity := by decide +kernel

theorem exTimed_symmetric : SymmetricUserTimes exTimed.G where
  sym := by
    intro u v
    by_cases h : UserArc exTimed.G u v ∧ UserArc exTimed.G v u
    · exfalso
      obtain ⟨h1, h2⟩ := h
      have key : ∀ u v, UserArc exTimed.G u v → u = .source ∨ (u = .cust 1 ∧ v = .cust 2) ∨ v = .sink := by
        rintro u v (h | h | h | h)
        · simp only [exTimed, exAgain, exPlan] at h
          split at h <;> simp at h <;> (try rcases h with rfl | rfl) <;> simp [*]
        · exact Or.inl h.1
        · exact Or.inr (Or.inr h.1)
        · exact Or.inl h.1
      have into : ∀ u, ¬ UserArc exTimed.G u .source := by
        rintro u (h | ⟨_, n, h⟩ | ⟨h, _⟩ | ⟨_, h⟩)
        · simp only [exTimed, exAgain, exPlan] at h
          split at h <;> simp at h
        all_goals cases h
      rcases key _ _ h1 with rfl | ⟨rfl, rfl⟩ | rfl
      · exact into _ h2
      · rcases key _ _ h2 with h | ⟨h, _⟩ | h <;> cases h
      · rcases key _ _ h2 with h | ⟨h, _⟩ | rfl
        · cases h
        · cases h
        · rcases h1 with h | ⟨h, _⟩ | ⟨_, n, h⟩ | ⟨h, _⟩
          · simp [exTimed, exAgain, exPlan] at h
          all_goals cases h
    · exact Or.inr h
  depot := by
    intro n hn
    have : n = 1 ∨ n = 2 := by simpa [exTimed, exAgain, exPlan] using hn
    rcases this with rfl | rfl <;> decide +kernel

/-- LP pricing, round trips given. -/
def exLpAgain : SolveArgs := { exArgs with cspy := false }

/-- All hypotheses of `C37_lp_partial` and `C37_duration_partial` hold for the example: the first call returns the route over both customers
(15), with `duration = 12` set and round trips as initial routes the second call returns two routes. -/
example : LpSound againWorld ∧ (∀ x, (againWorld.cw x).Valid) ∧ Capacitated exTimed ∧ TimesForward exTimed ∧
    SymmetricUserTimes exTimed.G ∧ ∃ o o1 o2, Obj.create exTimed = .ok o ∧ o.solve againWorld {} 10 = .ok (some o1) ∧
    o1.solution.routes = [(1, routeOf [.cust 1, .cust 2])] ∧
    Changes o (o1.setLimits (.int 1) (.one (.int 3)) (.int 12)) ∧
    RoundTripsFit (withLimits exTimed (o1.setLimits (.int 1) (.one (.int 3)) (.int 12)).P) ∧
    (∀ r ∈ exLpAgain.initialRoutes, r.Nodup ∧ WithinStops (some 1) (stops r).length ∧
      InTime (withLimits exTimed (o1.setLimits (.int 1) (.one (.int 3)) (.int 12)).P) r) ∧
    (o1.setLimits (.int 1) (.one (.int 3)) (.int 12)).solve againWorld exLpAgain 10 = .ok (some o2) ∧
    o2.solution.routes = [(1, routeOf [.cust 1]), (2, routeOf [.cust 2])] := by
  obtain ⟨o, o1, h1, h2, h3⟩ := solvedOnce_test (w := againWorld) (a := {}) (fuel := 10) (P := exTimed)
    (fun _ o1 => decide (o1.solution.routes = [(1, routeOf [.cust 1, .cust 2])] ∧ o1.P.mixedFleet = false ∧
      solutionOf ((o1.setLimits (.int 1) (.one (.int 3)) (.int 12)).solve againWorld exLpAgain 10) =
      some ⟨[(1, routeOf [.cust 1]), (2, routeOf [.cust 2])], [(1, 0), (2, 0)], []⟩)) (by decide +kernel)
  obtain ⟨h3, hm, h4⟩ := of_decide_eq_true h3
  obtain ⟨o2, h5, h6⟩ := solutionOf_ok h4
  refine ⟨againWorld_lp, againWorld_ok.cw, exTimed_capacitated, ⟨by decide +kernel, fun _ _ _ => by simp [exTimed]⟩, exTimed_symmetric,
    o, o1, o2, h1, h2, h3, .set _ _ _ (.call _ _ _ (.refl _) rfl h2) (fun hf => ?_), ?_, ?_, h5, by rw [h6]⟩
  · rw [hm] at hf
    cases hf
  · intro n hn d hd _
    cases hd
    have : n = 1 ∨ n = 2 := by simpa [withLimits, exTimed, exAgain, exPlan] using hn
    show userDuration exTimed.G _ ≤ _
    rcases this with rfl | rfl <;> decide +kernel
  · intro r hr
    simp only [exLpAgain, exArgs, List.mem_cons, List.not_mem_nil, or_false] at hr
    rcases hr with rfl | rfl <;>
    · refine ⟨by decide, ?_, ?_⟩
      · intro m hm _
        cases hm
        decide
      · intro _ d hd _
        cases hd
        show userDuration exTimed.G _ ≤ _
        decide +kernel

end Vrpy
