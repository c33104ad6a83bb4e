import Verif.Model.Threshold
import Verif.Props.EndToEndBoundCspy

/-!
# C78: the threshold of the search for elementary paths
-/

namespace Vrpy

open Spec Cspy

/-- The smallest reduced cost of an arc. -/
def Spec.Lightest (G : Net) (w : Node → Node → ℚ) (t : ℚ) : Prop :=
  (∃ e ∈ G.edges, w e.1 e.2 = t) ∧ ∀ e ∈ G.edges, t ≤ w e.1 e.2

/-- What a pricing problem leaves behind, without the statistics. -/
def Spec.withoutStats (r : Py (List Column × Bool × CspyStats)) : Py (List Column × Bool) :=
  match r with
  | .error e => .error e
  | .ok (cols, more, _) => .ok (cols, more)

theorem foldl_min_spec (xs : List ℚ) : ∀ x, (xs.foldl min x = x ∨ xs.foldl min x ∈ xs) ∧ xs.foldl min x ≤ x ∧
    ∀ y ∈ xs, xs.foldl min x ≤ y := by
  induction xs with
  | nil => intro x; simp
  | cons z xs ih =>
    intro x
    obtain ⟨h1, h2, h3⟩ := ih (min x z)
    simp only [List.foldl_cons]
    refine ⟨?_, h2.trans (min_le_left _ _), ?_⟩
    · rcases h1 with h1 | h1
      · rw [h1]
        rcases min_choice x z with h | h
        · exact Or.inl h
        · exact Or.inr (by rw [h]; exact List.mem_cons_self ..)
      · exact Or.inr (List.mem_cons_of_mem _ h1)
    · intro y hy
      rcases List.mem_cons.1 hy with rfl | hy
      · exact h2.trans (min_le_right _ _)
      · exact h3 y hy

/-- The threshold of a new object. -/
theorem threshold_lightest {q : Cspy} {full : Net} {t : ℚ} (ht : Lightest full q.weight t) :
    q.threshold full {} true = .ok (some t) := by
  obtain ⟨⟨e, he, rfl⟩, hle⟩ := ht
  unfold threshold
  rw [if_pos rfl]
  have hmem : q.weight e.1 e.2 ∈ full.edges.map (fun e => q.weight e.1 e.2) := List.mem_map.2 ⟨e, he, rfl⟩
  have hall : ∀ y ∈ full.edges.map (fun e => q.weight e.1 e.2), q.weight e.1 e.2 ≤ y := by
    intro y hy
    obtain ⟨e', he', rfl⟩ := List.mem_map.1 hy
    exact hle e' he'
  generalize full.edges.map (fun e => q.weight e.1 e.2) = l at hmem hall
  cases l with
  | nil => cases hmem
  | cons x xs =>
    obtain ⟨h1, h2, h3⟩ := foldl_min_spec xs x
    simp only [one_mul, Except.ok.injEq, Option.some.injEq]
    refine le_antisymm ?_ ?_
    · rcases List.mem_cons.1 hmem with h | h
      · rw [h]; exact h2
      · exact h3 _ h
    · rcases h1 with h1 | h1
      · rw [h1]; exact hall x (by simp)
      · exact hall _ (List.mem_cons_of_mem _ h1)

theorem attemptsThr_eq {q : Cspy} {full : Net} {t : ℚ} {keys : List Node} {oracle : Bool → Option ℚ → Option (ℚ × List Node)}
    {cols : List Column} (ht : Lightest full q.weight t) (es : List Bool) :
    withoutStats (q.attemptsThr full keys oracle cols {} es) =
      q.attempts keys (fun e => oracle e (if e then some t else none)) cols es := by
  induction es with
  | nil => rfl
  | cons e es ih =>
    have hthr : q.threshold full {} e = .ok (if e then some t else none) := by
      cases e with
      | false => rfl
      | true => exact threshold_lightest ht
    simp only [attemptsThr, attempts, hthr]
    cases oracle e (if e then some t else none) with
    | none => rfl
    | some x =>
      obtain ⟨c, path⟩ := x
      simp only
      by_cases hc : c < -(1 / 1000)
      · simp only [if_pos hc]
        cases q.createRoute keys cols.length path with
        | error err => rfl
        | ok col =>
          simp only
          by_cases hany : (cols.any fun r => decide (r.edges = col.edges)) = true
          · simp only [if_pos hany]
            exact ih
          · simp only [if_neg hany]
            rfl
      · simp only [if_neg hc]
        rfl

/-- **C78.** The first search is made without a threshold, the search for elementary paths with the smallest reduced cost of an
arc of the graph (not of the part of it that is searched): the average length of the paths found, by which it is to be
multiplied, is 1, because a new object is made for every pricing problem and the search ends when a path is added. -/
theorem C78_threshold {q : Cspy} {full : Net} {t : ℚ} {run : Bool} {keys : List Node} {oracle : ThrOracle} {cols : List Column}
    (ht : Lightest full q.weight t) :
    withoutStats (q.solveThr full run keys oracle cols {}) =
      q.solve run keys (fun m e => oracle m e (if e then some t else none)) cols := by
  unfold solveThr solve
  cases run with
  | false => rfl
  | true =>
    simp only [Bool.not_true, Bool.false_eq_true, if_false]
    cases q.formulate with
    | error e => rfl
    | ok m => exact attemptsThr_eq ht _

/-- **C78**, the statistics: had one object been kept, the average would be the mean number of nodes of the paths found that are
not from Source to Sink at once. -/
theorem C78_average (ns : List Nat) (hn : ∀ n ∈ ns, 2 < n) (hne : ns ≠ []) :
    (ns.foldl CspyStats.update {}).avgPathLen = (ns.sum : ℚ) / ns.length := by
  have key : ∀ (ns : List Nat) (s : CspyStats) (total : ℚ) (k : Nat), (∀ n ∈ ns, 2 < n) → s.iters = k + 1 →
      s.avgPathLen * k = total →
      (ns.foldl CspyStats.update s).iters = k + ns.length + 1 ∧
        (ns.foldl CspyStats.update s).avgPathLen * ((k + ns.length : Nat) : ℚ) = total + ns.sum := by
    intro ns
    induction ns with
    | nil =>
      intro s total k _ h1 h2
      simp [h1, h2]
    | cons n ns ih =>
      intro s total k hn h1 h2
      have hn2 := hn n (by simp)
      rw [List.foldl_cons]
      have hu : s.update n = { avgPathLen := s.avgPathLen + ((n : ℚ) - s.avgPathLen) / s.iters, iters := s.iters + 1 } := by
        unfold CspyStats.update
        rw [if_pos hn2]
      obtain ⟨g1, g2⟩ := ih (s.update n) (total + n) (k + 1) (fun n hn' => hn n (List.mem_cons_of_mem _ hn'))
        (by rw [hu]; simp [h1])
        (by
          rw [hu, h1]
          simp only
          push_cast
          have : (k : ℚ) + 1 ≠ 0 := by positivity
          field_simp
          linarith)
      refine ⟨by rw [g1, List.length_cons]; omega, ?_⟩
      rw [List.length_cons, List.sum_cons, show k + (ns.length + 1) = k + 1 + ns.length by omega, g2]
      push_cast
      ring
  obtain ⟨_, h⟩ := key ns {} 0 0 hn rfl (by simp)
  have hpos : (0 : ℚ) < ns.length := by
    exact_mod_cast List.length_pos_iff.2 hne
  rw [eq_div_iff hpos.ne']
  simpa using h

theorem attemptsThr_stats {q : Cspy} {full : Net} {keys : List Node} {oracle : Bool → Option ℚ → Option (ℚ × List Node)}
    {cols cols' : List Column} {more : Bool} {s s' : CspyStats} : ∀ es : List Bool,
    q.attemptsThr full keys oracle cols s es = .ok (cols', more, s') →
      (more = false → s' = s) ∧ (more = true → ∃ e thr c path col, oracle e thr = some (c, path) ∧
        q.createRoute keys cols.length path = .ok col ∧ cols' = cols ++ [col] ∧ s' = s.update path.length)
  | [], h => by
    simp only [attemptsThr, Except.ok.injEq, Prod.mk.injEq] at h
    obtain ⟨_, rfl, rfl⟩ := h
    exact ⟨fun _ => rfl, fun hf => (by cases hf)⟩
  | e :: es, h => by
    have hstop : ∀ {x : List Column × Bool × CspyStats}, (.ok (cols, false, s) : Py _) = .ok x → x.2.1 = false ∧ x.2.2 = s := by
      rintro x hx
      cases hx
      exact ⟨rfl, rfl⟩
    simp only [attemptsThr] at h
    cases hthr : q.threshold full s e with
    | error err => simp only [hthr] at h; cases h
    | ok thr =>
    simp only [hthr] at h
    cases ho : oracle e thr with
    | none =>
      simp only [ho] at h
      obtain ⟨h1, h2⟩ := hstop h
      exact ⟨fun _ => h2, fun hm => absurd (h1.symm.trans hm) (by decide)⟩
    | some x =>
    obtain ⟨c, path⟩ := x
    simp only [ho] at h
    split at h
    · cases hcr : q.createRoute keys cols.length path with
      | error err => simp only [hcr] at h; cases h
      | ok col =>
        simp only [hcr] at h
        split at h
        · exact attemptsThr_stats es h
        · simp only [Except.ok.injEq, Prod.mk.injEq] at h
          obtain ⟨rfl, rfl, rfl⟩ := h
          exact ⟨fun hf => (by cases hf), fun _ => ⟨e, thr, c, path, col, ho, hcr, rfl, rfl⟩⟩
    · obtain ⟨h1, h2⟩ := hstop h
      exact ⟨fun _ => h2, fun hm => absurd (h1.symm.trans hm) (by decide)⟩

/-- **C78**, the statistics after a pricing problem: nothing is counted if no column is added; otherwise the average is the number
of nodes of the path added, if there is a customer on it. -/
theorem C78_statistics {q : Cspy} {full : Net} {run : Bool} {keys : List Node} {oracle : ThrOracle} {cols cols' : List Column}
    {more : Bool} {s' : CspyStats} (h : q.solveThr full run keys oracle cols {} = .ok (cols', more, s')) :
    (more = false → s'.avgPathLen = 1 ∧ s'.iters = 1) ∧
      (more = true → ∃ m e thr c path col, oracle m e thr = some (c, path) ∧ q.createRoute keys cols.length path = .ok col ∧
        cols' = cols ++ [col] ∧ (2 < path.length → s'.avgPathLen = path.length ∧ s'.iters = 2) ∧
        (path.length ≤ 2 → s'.avgPathLen = 1 ∧ s'.iters = 1)) := by
  unfold solveThr at h
  split at h
  · cases h
    exact ⟨fun _ => ⟨rfl, rfl⟩, fun hf => (by cases hf)⟩
  · cases hf : q.formulate with
    | error e => simp only [hf] at h; cases h
    | ok m =>
      simp only [hf] at h
      obtain ⟨h1, h2⟩ := attemptsThr_stats _ h
      refine ⟨fun hm => by rw [h1 hm]; exact ⟨rfl, rfl⟩, fun hm => ?_⟩
      obtain ⟨e, thr, c, path, col, ho, hcr, hcols, hs⟩ := h2 hm
      refine ⟨m, e, thr, c, path, col, ho, hcr, hcols, fun hn => ?_, fun hn => ?_⟩
      · rw [hs, CspyStats.update, if_pos hn]
        exact ⟨by simp, rfl⟩
      · rw [hs, CspyStats.update, if_neg (by omega)]
        exact ⟨rfl, rfl⟩

/-- The average is not limited to paths with customers: nothing is counted for others. -/
example : ([4, 3, 8].foldl CspyStats.update {}).avgPathLen = 5 ∧ ([4, 2, 3, 8].foldl CspyStats.update {}).avgPathLen = 5 := by
  decide +kernel

/-! ## What the threshold costs -/

/-- What cspy promises: if there is a path within the limits (without repeated nodes, if asked for), it finds one that is at least as
good, unless it stops with one that is not above the threshold. -/
def Spec.CspyStops (q : Cspy) (oracle : ThrOracle) : Prop :=
  ∀ m e thr path, path.head? = some .source → path.getLast? = some .sink → Along (fun u v => v ∈ q.G.succ u) path →
    (e = true → path.Nodup) → WithinLimits q m path →
    ∃ c p, oracle m e thr = some (c, p) ∧ (c ≤ legSum q.weight path ∨ ∃ t, thr = some t ∧ c ≤ t)

/-- A search that stops at a threshold that is not above the reduced cost of any arc. -/
def Spec.StopsEarly (q : Cspy) (o : Cspy.Oracle) : Prop :=
  ∃ oracle : ThrOracle, CspyStops q oracle ∧ ∀ m e, ∃ thr, o m e = oracle m e thr ∧ (e = false → thr = none) ∧
    ∀ t, thr = some t → ∀ a ∈ q.G.edges, t ≤ q.weight a.1 a.2

/-- The number of arcs of a path. -/
def Spec.legs (p : List Node) : Nat := p.length - 1

theorem legSum_ge {w : Node → Node → ℚ} {c : ℚ} : ∀ {p : List Node}, (∀ e ∈ consecutive p, c ≤ w e.1 e.2) →
    c * legs p ≤ legSum w p
  | [], _ => by simp [legs, legSum]
  | [_], _ => by simp [legs, legSum]
  | a :: b :: rest, h => by
    have h1 := h (a, b) (by simp [consecutive])
    have h2 := legSum_ge (w := w) (c := c) (p := b :: rest) (fun e he => h e (by
      rw [consecutive_cons_cons]
      exact List.mem_cons_of_mem _ he))
    simp only [legs, List.length_cons, Nat.add_sub_cancel, legSum] at h2 ⊢
    push_cast
    linarith

/-- Such a search finds every path up to 1/1000 for each arc. -/
theorem finds_of_stops {q : Cspy} {o : Cspy.Oracle} (hG : WellFormed q.G) (h : StopsEarly q o) :
    CspyFindsUpTo (fun p => 1 / 1000 * legs p) q o := by
  obtain ⟨oracle, hstops, ho⟩ := h
  intro m e path h1 h2 h3 h4 h5 h6
  obtain ⟨thr, hthr, _, hle⟩ := ho m e
  obtain ⟨c, p, hc, hcase⟩ := hstops m e thr path h1 h2 h3 h4 h5
  have hlegs : (1 : ℚ) ≤ legs path := by
    match path, h1, h2 with
    | [x], h1, h2 =>
      simp only [List.head?_cons, Option.some.injEq] at h1
      simp [h1] at h2
    | x :: y :: rest, _, _ => simp [legs]
  refine ⟨p, c, by rw [hthr, hc], ?_⟩
  simp only at h6
  rcases hcase with hcase | ⟨t, rfl, hcase⟩
  · linarith
  · by_contra hge
    push Not at hge
    have hsum : -(1 / 1000) * (legs path : ℚ) ≤ legSum q.weight path := by
      refine legSum_ge ?_
      intro a ha
      refine hge.trans (hcase.trans (hle t rfl a ?_))
      obtain ⟨u, v⟩ := a
      exact (Net.mem_edges hG u v).2 ((along_iff _ _).1 h3 u v ha)
    linarith

/-- **C78**, one pricing problem: if pricing with cspy and the threshold adds nothing, no simple route within the limits has a
reduced cost below `-1/1000` for each of its arcs, provided the routes in the pool do not have one below `-1/1000`.  What is
missing: as for `C73_no_route_left_partial`, the routes in the pool; `-1/1000` for a route, for which it is false
(`C78_threshold_counterexample`). -/
theorem C78_no_route_left_partial {q : Cspy} {full : Net} {t : ℚ} {m : Res} {keys : List Node} {oracle : ThrOracle}
    {cols cols' : List Column} {s : CspyStats} (hG : WellFormed q.G) (hfull : ∀ e ∈ q.G.edges, e ∈ full.edges)
    (ht : Lightest full q.weight t) (hsound : ∀ thr, CspySound q (fun m e => oracle m e thr)) (hstops : CspyStops q oracle)
    (hform : q.formulate = .ok m)
    (hpool : ∀ c ∈ cols, ∀ p, IsSimpleRoute q.G p → c.edges = graphEdges (consecutive p) → -(1 / 1000) ≤ legSum q.weight p)
    (h : q.solveThr full true keys oracle cols {} = .ok (cols', false, s)) {r : List Node} (hr : IsSimpleRoute q.G r)
    (hlim : WithinLimits q m r) : -(1 / 1000 * (legs r : ℚ)) ≤ legSum q.weight r := by
  have heq := C78_threshold (run := true) (keys := keys) (oracle := oracle) (cols := cols) ht
  rw [h] at heq
  refine no_path_left (tol := fun p => 1 / 1000 * legs p) hG (fun m e => hsound (if e then some t else none) m e)
    (finds_of_stops hG ⟨oracle, hstops, fun m e => ⟨_, rfl, ?_, ?_⟩⟩) hform hpool heq.symm hr hlim
  · rintro rfl
    rfl
  · intro t' ht' a ha
    cases e with
    | false => cases ht'
    | true =>
      simp only [if_true, Option.some.injEq] at ht'
      rw [← ht']
      exact ht.2 a (hfull a ha)

/-- **C78 (partial)**, end to end: C70 for pricing with cspy under what cspy promises with a threshold, up to `n/1000`
for each vehicle, where `n` bounds the number of arcs of its route.  What is missing: as for `C70_cspy_partial`. -/
theorem C78_bound_partial {w : World} {a : SolveArgs} {fuel : Nat} {P0 : Vrp} {o o' : Obj} (hw : WorldOk w)
    (hstops' : ∀ t q, WellFormed q.G → StopsEarly q (w.cspy t q)) (hP : Deliveries P0) (hD : NonnegativeData P0) (hC : CspyData P0)
    (hpen : 0 ≤ P0.dropPenalty)
    (hmixed : P0.mixedFleet = false) (hone : (userCapacities P0.loadCapacity).length ≤ 1)
    (hstops : P0.numStops.stops ≠ none ∨ userCapacities P0.loadCapacity ≠ [])
    (hspan : P0.minimizeGlobalSpan = false) (hpre : a.preassignments = [])
    (hheur : a.heuristicOnly = false) (hcspy : a.cspy = true) (hgreedy : a.greedy = false)
    (hstrat : a.strategy ≠ "Hyper") (hc : Obj.create P0 = .ok o)
    (hduals : ∀ P' P'' fuel cols m stm, o.P.startSolve w.dist a.strategy a.cspy a.initialRoutes a.preassignments = .ok P' →
      P'.initialize P'.G.toNet w.cw fuel = .ok (some (P'', cols)) →
      Solve.Trace (P''.solveCfg a w.falsy) w.toEnv false (o.start a P'' cols) m stm →
      (w.master stm.tick (P''.master.lp stm.mcols true)).optimal = true →
      DualsOk P''.master stm.mcols (w.master stm.tick (P''.master.lp stm.mcols true)) ∧
      ColumnsPriced P''.master stm.mcols (w.master stm.tick (P''.master.lp stm.mcols true)))
    (h : o.solve w a fuel = .ok (some o')) (hno : Spec.NotStagnant a o')
    (hiter : a.maxIter = 0 ∨ o'.iteration < a.maxIter) (htime : ∀ t, w.timeUp t = false) :
    ∃ K bound, o'.P.vehicleTypes = some K ∧ o'.bounds.getLast? = some bound ∧ ∀ S n, SolvesWithin P0 K S →
      (P0.useAllVehicles = true → ∀ p ∈ S.routes, stops p.2 ≠ []) →
      (∀ e ∈ S.routes, legs e.2 ≤ n) →
      bound ≤ (userCosts P0 S).sum + P0.dropPenalty * S.dropped.length + n / 1000 * S.routes.length := by
  obtain ⟨K, bound, h1, h2, h3⟩ := cspy_bound_upTo hw (fun t q hG => finds_of_stops hG (hstops' t q hG)) hP hD hC hpen hmixed hone
    hstops hspan hpre hheur hcspy hgreedy hstrat hc hduals h hno hiter htime
  refine ⟨K, bound, h1, h2, fun S n hS hused hn => h3 S _ hS hused (by positivity) ?_⟩
  intro e he
  have : (legs e.2 : ℚ) ≤ n := by exact_mod_cast hn e he
  show 1 / 1000 * (legs e.2 : ℚ) ≤ n / 1000
  linarith

end Vrpy
