import Verif.Props.Master

/-!
# The master problem: concrete cases and counterexamples for C23, C24, C25, C32, C52, C54
-/

namespace Vrpy

open Spec

namespace Master

/-- Three customers; every single customer and each of the pairs (1,2), (2,3), (3,1) costs 2. -/
def exTri : Net where
  nodes := [.source, .cust 1, .cust 2, .cust 3, .sink]
  succ := fun u => match u with
    | .source => [.cust 1, .cust 2, .cust 3]
    | .cust 1 => [.cust 2, .sink]
    | .cust 2 => [.cust 3, .sink]
    | .cust 3 => [.cust 1, .sink]
    | _ => []
  cost := fun u v => [if u = .source ∨ v = .sink then 1 else 0]
  time := fun _ _ => 1

theorem exTri_wf : WellFormed exTri := by
  refine ⟨by decide, ?_, ?_, by decide, by decide, ?_, rfl⟩
  · intro u; simp only [exTri]; split <;> decide
  · intro u v; simp only [exTri]; split <;> simp <;> tauto
  · intro u; simp only [exTri]; split <;> decide

/-- The column of a route of `exTri`. -/
def exCol (i : Nat) (mid : List Node) : Column where
  name := .num i
  nodes := routeOf mid
  edges := consecutive (routeOf mid)
  cost := Spec.cost exTri 0 (routeOf mid)
  vehicleType := 0

/-- A column that goes round the triangle. -/
def exRound : Column where
  name := .nonElem 7
  path := some (routeOf [.cust 1, .cust 2, .cust 3, .cust 1])
  nodes := [.source, .cust 1, .cust 2, .cust 3, .sink]
  edges := [(.source, .cust 1), (.cust 1, .cust 2), (.cust 1, .sink), (.cust 2, .cust 3), (.cust 3, .cust 1)]
  cost := 2
  vehicleType := 0

/-- Single customers, pairs, and the round trip. -/
def exPool : List Column :=
  [exCol 1 [.cust 1], exCol 2 [.cust 2], exCol 3 [.cust 3], exCol 4 [.cust 1, .cust 2], exCol 5 [.cust 2, .cust 3],
   exCol 6 [.cust 3, .cust 1], exRound]

theorem exPool_ok : PoolOk exTri exPool := by
  intro c hc
  have h : ∀ i mid, (∀ v ∈ mid, v ∈ exTri.customers) → mid.Nodup → Along (fun u v => v ∈ exTri.succ u) (routeOf mid) →
      ∃ r, IsSimpleRoute exTri r ∧ Draws (exCol i mid) r := fun i mid h1 h2 h3 =>
    ⟨routeOf mid, isSimpleRoute_routeOf h1 h2 h3, List.Perm.refl _, List.Perm.refl _, by intro p hp; cases hp⟩
  simp only [exPool, List.mem_cons, List.not_mem_nil, or_false] at hc
  rcases hc with rfl | rfl | rfl | rfl | rfl | rfl | rfl
  · right; exact h _ _ (by decide) (by decide) (by simp [Along, routeOf, exTri])
  · right; exact h _ _ (by decide) (by decide) (by simp [Along, routeOf, exTri])
  · right; exact h _ _ (by decide) (by decide) (by simp [Along, routeOf, exTri])
  · right; exact h _ _ (by decide) (by decide) (by simp [Along, routeOf, exTri])
  · right; exact h _ _ (by decide) (by decide) (by simp [Along, routeOf, exTri])
  · right; exact h _ _ (by decide) (by decide) (by simp [Along, routeOf, exTri])
  · left; exact ⟨7, rfl⟩

/-- The path of a column of `exPool`. -/
def exPath (c : Column) : List Node := c.path.getD c.nodes

theorem exPath_shortest {p : MVar → ℚ} (h : p (.y (.nonElem 7)) = 0) :
    ∀ c ∈ selected exPool p, IsShortestPath c.edges (exPath c) := by
  intro c hc
  obtain ⟨hc, hpos⟩ := mem_selected.1 hc
  have key : ∀ i mid, (routeOf mid).Nodup → IsShortestPath (exCol i mid).edges (exPath (exCol i mid)) := fun i mid h =>
    (shortest_iff h (fun e => Iff.rfl) _).2 rfl
  simp only [exPool, List.mem_cons, List.not_mem_nil, or_false] at hc
  rcases hc with rfl | rfl | rfl | rfl | rfl | rfl | rfl
  · exact key _ _ (by decide)
  · exact key _ _ (by decide)
  · exact key _ _ (by decide)
  · exact key _ _ (by decide)
  · exact key _ _ (by decide)
  · exact key _ _ (by decide)
  · simp only [exRound, h] at hpos
    exact absurd hpos (lt_irrefl _)

/-- The first pair and the third customer. -/
def exPoint : MVar → ℚ
  | .y (.num 4) => 1
  | .y (.num 3) => 1
  | _ => 0

/-- The second pair; customer 1 is dropped. -/
def exDropPoint : MVar → ℚ
  | .y (.num 5) => 1
  | .drop (.cust 1) => 1
  | _ => 0

/-- The hypotheses of C23 and C24, met by two routes, all vehicles used. -/
example : ((⟨exTri, 0, [2], true, false, false⟩ : Master).lp exPool false).Feasible exPoint ∧
    (selected exPool exPoint).map exPath = [[.source, .cust 3, .sink], [.source, .cust 1, .cust 2, .sink]] :=
  ⟨feasible_of _ _ (by decide +kernel), by decide +kernel⟩

example : VisitsEachOnce exTri.customers ((selected exPool exPoint).map exPath) := by
  have h := (C23_each_customer_once (M := ⟨exTri, 0, [2], true, false, false⟩) exPool_ok rfl
    (feasible_of _ exPoint (by decide +kernel)) (exPath_shortest rfl)).1
  exact h

/-- The hypotheses of C23, met with a dropped customer. -/
example : ((⟨exTri, 5, [2], false, false, false⟩ : Master).lp exPool false).Feasible exDropPoint ∧
    (⟨exTri, 5, [2], false, false, false⟩ : Master).dropped exDropPoint = [.cust 1] :=
  ⟨feasible_of _ _ (by decide +kernel), by decide +kernel⟩

/-- In the relaxation the round trip can be used (C25 is about the final problem only). -/
example : ((⟨exTri, 0, [], false, false, false⟩ : Master).lp exPool true).Feasible
    (fun x => if x = .y (.nonElem 7) then 1 else 0) ∧ ¬ ((⟨exTri, 0, [], false, false, false⟩ : Master).lp exPool false).Feasible
    (fun x => if x = .y (.nonElem 7) then 1 else 0) := by
  refine ⟨feasible_of _ _ (by decide +kernel), ?_⟩
  intro h
  have := (mip_y h (c := exRound) (by decide)).2 rfl
  simp [exRound] at this

/-- Two valid plans for C54: the pair (1,2) and customer 3; customer 1 dropped. -/
theorem exPlan_valid : ValidPlan exTri [2] true [] [(0, [.source, .cust 1, .cust 2, .sink]), (0, [.source, .cust 3, .sink])] where
  routes := by
    intro e he
    simp only [List.mem_cons, List.not_mem_nil, or_false] at he
    rcases he with rfl | rfl
    · exact (isSimpleRoute_routeOf (L := [.cust 1, .cust 2]) (by decide) (by decide) (by simp [Along, routeOf, exTri])).1
    · exact (isSimpleRoute_routeOf (L := [.cust 3]) (by decide) (by decide) (by simp [Along, routeOf, exTri])).1
  once := by unfold VisitsEachOnce; decide +kernel
  skipped := by intro v hv; cases hv
  vehicles := by
    intro k n hk
    match k with
    | 0 => cases hk; exact ⟨by decide, fun _ => by decide⟩
    | k + 1 => simp at hk
  types := by
    intro _ e he
    simp only [List.mem_cons, List.not_mem_nil, or_false] at he
    rcases he with rfl | rfl <;> decide

/-- The hypotheses of C54, met by dual values 1, 1, 1 and -0.5 for a vehicle: the bound 2 for a plan of cost 4. -/
example : (3 : ℚ) + -1 ≤ planCost exTri [(0, [.source, .cust 1, .cust 2, .sink]), (0, [.source, .cust 3, .sink])] := by
  let a : Answer := ⟨true, fun _ => 0, fun _ => 1, fun _ => -1/2, fun _ => 0⟩
  let M : Master := ⟨exTri, 0, [2], true, false, false⟩
  obtain ⟨w, hw⟩ := C14_defined (G := exTri) (d := M.duals [] a) (k := 0) exTri_wf
    (by intro u v _; simp [exTri]) (by intro ps h; cases h; decide)
  have hnd : ((M.duals [] a).visit.map Prod.fst).Nodup := by decide
  have hs : Node.source ∉ (M.duals [] a).visit.map Prod.fst := by decide
  have h := C54_weak_duality (M := M) (cols := []) exTri_wf rfl a (ε := 0) (pen := 0) (w := fun _ => w) exPlan_valid
    (by intro h; cases h) (by intro v _ hv; cases hv) (by
      intro e he
      simp only [List.mem_cons, List.not_mem_nil, or_false] at he
      rcases he with rfl | rfl <;> exact hw) (by
      intro e he
      have hr := C14_reduced_costs exTri_wf hnd hs hw (exPlan_valid.routes e he)
      rw [hr]
      simp only [List.mem_cons, List.not_mem_nil, or_false] at he
      rcases he with rfl | rfl <;> decide +kernel)
  refine le_trans ?_ (h.trans ?_)
  · decide +kernel
  · simp [M]

/-- One customer that is to be visited twice. -/
def exTwice : Net where
  nodes := [.source, .cust 1, .sink]
  succ := fun u => match u with
    | .source => [.cust 1]
    | .cust 1 => [.sink]
    | _ => []
  freq := fun v => if v = .cust 1 then 2 else 0
  cost := fun _ _ => [1]

/-- The only column. -/
def exOnce : Column where
  name := .num 1
  nodes := [.source, .cust 1, .sink]
  edges := [(.source, .cust 1), (.cust 1, .sink)]
  cost := 2
  vehicleType := 0

/-- The only path. -/
theorem exTwice_path {path : List Node} (h1 : path.head? = some .source) (h2 : path.getLast? = some .sink)
    (h3 : Along (fun u v => v ∈ exTwice.succ u) path) : path = [.source, .cust 1, .sink] := by
  match path with
  | [] => simp at h1
  | [a] => simp at h1 h2; rw [h1] at h2; cases h2
  | [a, b] =>
    simp at h1 h2; subst h1 h2
    simp [Along, exTwice] at h3
  | a :: b :: c :: rest =>
    simp at h1; subst h1
    obtain ⟨hb, hc, hr⟩ := h3
    simp [exTwice] at hb; subst hb
    simp [exTwice] at hc; subst hc
    cases rest with
    | nil => rfl
    | cons d rest => exact absurd hr.1 (by simp [exTwice])

/-- **C32**, counterexample: with frequency 2, the final problem has an optimal solution in which the only customer is
visited once (the artificial variable takes the rest), no solution does better, and pricing with cspy finds no further column,
because it refuses a second column with the same edges, whatever it is asked and whatever paths the labelling algorithm finds. -/
theorem C32_counterexample :
    let M : Master := { G := exTwice, periodic := true }
    (∃ p, (M.lp [exOnce] false).Optimal p ∧ ((selected [exOnce] p).map exPath).flatten.count (.cust 1) = 1) ∧
    (∀ p, (M.lp [exOnce] false).Feasible p → ((selected [exOnce] p).map exPath).flatten.count (.cust 1) ≤ 1) ∧
    (∀ (q : Cspy) (keys : List Node) (oracle : Cspy.Oracle) (run : Bool) (cols' : List Column) (more : Bool), q.G = exTwice →
      CspySound q oracle → q.solve run keys oracle [exOnce] = .ok (cols', more) → cols' = [exOnce] ∧ more = false) := by
  refine ⟨⟨fun x => match x with | .y _ => 1 | .dummy _ => 1 | _ => 0, ⟨feasible_of _ _ (by decide +kernel), ?_⟩,
    by decide +kernel⟩, ?_, ?_⟩
  · intro x' hx'
    have hv := visit_eq hx' (v := .cust 1) (by decide)
    have hy := (mip_y hx' (c := exOnce) (by decide)).1
    have hobj : ∀ x : MVar → ℚ, (({ G := exTwice, periodic := true } : Master).lp [exOnce] false).obj.eval x =
        2 * x (.y (.num 1)) + big * x (.dummy (.cust 1)) := by
      intro x
      have : (({ G := exTwice, periodic := true } : Master).lp [exOnce] false).obj =
        [(2, .y (.num 1)), (big, .dummy (.cust 1))] := by decide +kernel
      rw [this]
      simp [eval_cons]
    rw [hobj, hobj]
    have hd : (if Node.cust 1 ∈ ({ G := exTwice, periodic := true } : Master).drops then x' (.drop (.cust 1)) else 0) = 0 := rfl
    have hm : (if Node.cust 1 ∈ ({ G := exTwice, periodic := true } : Master).dummies then x' (.dummy (.cust 1)) else 0) =
        x' (.dummy (.cust 1)) := by rw [if_pos (by decide)]
    have hfreq : exTwice.freq (.cust 1) = 2 := rfl
    rw [hd, hm, if_pos rfl, hfreq, ← sum_selected _ (by simpa using hy)] at hv
    have hcnt : (exOnce.visited false).count (.cust 1) = 1 := by decide
    have hname : exOnce.name = .num 1 := rfl
    have hspan : ({ G := exTwice, periodic := true } : Master).globalSpan = false := rfl
    simp only [List.map_cons, List.map_nil, List.sum_cons, List.sum_nil, hspan, hcnt, hname] at hv hy
    norm_num at hv
    norm_num [big]
    rcases hy with hy | hy <;> rw [hy] at hv ⊢ <;> linarith
  · intro p _
    simp only [selected, List.filter_cons, List.filter_nil]
    split <;> decide
  · intro q keys oracle run cols' more hG hs h
    have hcol : ∀ path c, path = [.source, .cust 1, .sink] → q.createRoute keys 1 path = .ok c →
        c.edges = exOnce.edges := by
      rintro path c rfl h
      unfold Cspy.createRoute at h
      simp only at h
      split at h
      · cases h
      · split at h
        · cases h
        · cases h; show graphEdges _ = _; decide
    have hatt : ∀ (m : Res) (es : List Bool), q.attempts keys (oracle m) [exOnce] es = .ok (cols', more) →
        cols' = [exOnce] ∧ more = false := by
      intro m es
      induction es with
      | nil => intro h; cases h; exact ⟨rfl, rfl⟩
      | cons e es ih =>
        intro h
        unfold Cspy.attempts at h
        cases ho : oracle m e with
        | none => simp only [ho] at h; cases h; exact ⟨rfl, rfl⟩
        | some cp =>
          obtain ⟨c, path⟩ := cp
          obtain ⟨h1, h2, h3, _⟩ := hs m e c path ho
          rw [hG] at h3
          have hp := exTwice_path h1 h2 h3
          simp only [ho] at h
          split at h
          · cases hc : q.createRoute keys [exOnce].length path with
            | error err => simp only [hc] at h; cases h
            | ok col =>
              simp only [hc] at h
              have := hcol path col hp hc
              rw [if_pos (by simp [this])] at h
              exact ih h
          · cases h; exact ⟨rfl, rfl⟩
    unfold Cspy.solve at h
    split at h
    · cases h; exact ⟨rfl, rfl⟩
    · cases hfm : q.formulate with
      | error e => simp [hfm] at h
      | ok m => simp only [hfm] at h; exact hatt m _ h

/-- The hypotheses of C32, met: with a second copy of the column both visits are made. -/
example : ∃ p, ((({ G := exTwice, periodic := true } : Master).lp [exOnce, { exOnce with name := .num 2 }] false).Feasible p) ∧
    (({ G := exTwice, periodic := true } : Master).lp [exOnce, { exOnce with name := .num 2 }] false).obj.eval p < big ∧
    ((selected [exOnce, { exOnce with name := .num 2 }] p).map exPath).flatten.count (.cust 1) = 2 :=
  ⟨fun x => match x with | .y _ => 1 | _ => 0, feasible_of _ _ (by decide +kernel), by decide +kernel, by decide +kernel⟩

/-- `n` customers. -/
def exMany (n : Nat) : Net where
  nodes := .source :: .sink :: (List.range n).map (fun i => .cust i)
  succ := fun u => match u with
    | .source => (List.range n).map (fun i => .cust i)
    | .cust _ => [.sink]
    | .sink => []
  cost := fun _ _ => [1]

/-- The round trips to `n` customers. -/
def exTrips (n : Nat) : List Column := (List.range n).map (fun i =>
  { name := .num (i + 1), nodes := [.source, .cust i, .sink], edges := [(.source, .cust i), (.cust i, .sink)], cost := 2,
    vehicleType := 0 })

/-- What a solver promises: the point it reports with status "Optimal" is feasible. -/
def _root_.Vrpy.Spec.MasterSolverSound (solver : LP MVar → Answer) : Prop :=
  ∀ prob, (solver prob).optimal = true → prob.Feasible (solver prob).point

/-- **C52**, counterexample: with 75 customers, the master problem over the 75 round trips (with which column generation
starts) has no feasible point, so that `solve` raises an exception, although the routes serve all customers. -/
theorem C52_counterexample (relax : Bool) :
    (∀ p, ¬ (({ G := exMany 75, globalSpan := true } : Master).lp (exTrips 75) relax).Feasible p) ∧
      (∀ solver, MasterSolverSound solver →
        ({ G := exMany 75, globalSpan := true } : Master).solve solver (exTrips 75) relax = .error .masterInfeasible) ∧
      VisitsEachOnce (exMany 75).customers ((exTrips 75).map (fun c => c.nodes)) := by
  have hno : ∀ p, ¬ (({ G := exMany 75, globalSpan := true } : Master).lp (exTrips 75) relax).Feasible p := by
    intro p hf
    have h75 : ∀ c ∈ exTrips 75, c.name = .num 75 → p (.y c.name) ≤ 0 := by
      intro c hc hn
      refine C52_unusable rfl (by decide +kernel) hf hc hn (le_refl _) (by decide) ?_
      obtain ⟨i, _, rfl⟩ := List.mem_map.1 hc
      norm_num
    have hv := hf.constrs (visitConstr { G := exMany 75, globalSpan := true } (exTrips 75) relax (.cust 74)) (by
      simp only [lp, List.append_assoc, List.mem_append, List.mem_map]
      exact Or.inl ⟨.cust 74, by decide +kernel, rfl⟩)
    have hle : (visitConstr { G := exMany 75, globalSpan := true } (exTrips 75) relax (.cust 74)).lhs.eval p ≤ 0 := by
      simp only [visitConstr, eval_append, eval_map]
      have hd : LinExpr.eval (if Node.cust 74 ∈ ({ G := exMany 75, globalSpan := true } : Master).drops
        then [(1, MVar.drop (.cust 74))] else []) p = 0 := rfl
      have hm : LinExpr.eval (if Node.cust 74 ∈ ({ G := exMany 75, globalSpan := true } : Master).dummies
        then [(1, MVar.dummy (.cust 74))] else []) p = 0 := rfl
      rw [hd, hm, add_zero, add_zero]
      refine (List.sum_le_card_nsmul _ 0 ?_).trans (by simp)
      intro x hx
      obtain ⟨c, hc, rfl⟩ := List.mem_map.1 hx
      by_cases hn : c.name = .num 75
      · exact mul_nonpos_of_nonneg_of_nonpos (by positivity) (h75 c hc hn)
      · have hz : (c.visited true).count (.cust 74) = 0 := by
          have : ∀ c ∈ exTrips 75, c.name ≠ .num 75 → (c.visited true).count (.cust 74) = 0 := by decide +kernel
          exact this c hc hn
        show ((c.visited true).count (.cust 74) : ℚ) * _ ≤ 0
        rw [hz]; simp
    unfold Constr.Holds at hv
    cases relax
    · simp only [visitConstr, Bool.false_eq_true, if_false] at hv hle
      rw [hv] at hle; norm_num at hle
    · simp only [visitConstr, if_true] at hv hle
      have := hv.trans hle
      norm_num at this
  refine ⟨hno, ?_, by unfold VisitsEachOnce; decide +kernel⟩
  intro solver hs
  unfold solve
  simp only
  split
  · rename_i ho
    exact absurd (hs _ ho) (hno _)
  · rfl

/-- **C52**: columns found with cspy, and numbered columns from 1000 on, cannot be added at all. -/
theorem C52_error {M : Master} (hspan : M.globalSpan = true) (hper : M.periodic = false) {c : Column}
    (hv : ∀ v ∈ c.visited true, v ∈ M.G.customers) (hn : ∀ i, c.name = .num i → nColumns ≤ i) :
    M.addColumn c = .error .keyError := by
  unfold addColumn
  have h1 : (c.visited M.globalSpan).any (fun v => v ∉ M.G.customers) = false := by
    rw [List.any_eq_false, hspan]
    intro v hv'
    simpa using hv v hv'
  have h2 : hasSpanConstr c.name = false := by
    cases hc : c.name with
    | num i =>
      have := hn i hc
      simp only [hasSpanConstr, decide_eq_false_iff_not, not_and, not_lt]
      exact fun _ => this
    | elem i => rfl
    | nonElem i => rfl
  rw [h1, h2, hper, hspan]; rfl

/-- The hypotheses of C52 for few columns, met: the two round trips to two customers. -/
example : (({ G := exMany 2, globalSpan := true } : Master).lp (exTrips 2) false).Optimal
    (fun x => match x with | .y _ => 1 | .makespan => 2 | _ => 0) := by
  refine ⟨feasible_of _ _ (by decide +kernel), ?_⟩
  intro x' hx'
  have hv := visit_eq hx' (v := .cust 0) (by decide)
  have hcol : (exTrips 2)[0] ∈ exTrips 2 := by simp [exTrips]
  have hy := (mip_y hx' hcol).1
  have hy1 := (mip_y hx' (c := (exTrips 2)[1]) (by simp [exTrips])).1
  have hsp := span_le rfl (by decide) hx' hcol (i := 1) rfl (by decide) (by decide)
  rw [if_pos (by decide)] at hsp
  have hobj : ∀ x : MVar → ℚ, (({ G := exMany 2, globalSpan := true } : Master).lp (exTrips 2) false).obj.eval x =
      x .makespan := by
    intro x
    have : (({ G := exMany 2, globalSpan := true } : Master).lp (exTrips 2) false).obj = [(1, .makespan)] := by
      decide +kernel
    rw [this]; simp
  rw [hobj, hobj]
  rw [← sum_selected _ (by
    intro c hc
    exact (mip_y hx' hc).1)] at hv
  have hd : (if Node.cust 0 ∈ ({ G := exMany 2, globalSpan := true } : Master).drops then x' (.drop (.cust 0)) else 0) = 0 := rfl
  have hm : (if Node.cust 0 ∈ ({ G := exMany 2, globalSpan := true } : Master).dummies then x' (.dummy (.cust 0)) else 0) = 0 := rfl
  rw [hd, hm] at hv
  have hlist : exTrips 2 = [(exTrips 2)[0], (exTrips 2)[1]] := by decide
  have hc0 : ((exTrips 2)[0].visited true).count (.cust 0) = 1 := by decide
  have hc1 : ((exTrips 2)[1].visited true).count (.cust 0) = 0 := by decide
  rw [hlist] at hv
  simp only [List.map_cons, List.map_nil, List.sum_cons, List.sum_nil, hc0, hc1] at hv
  have hcost : (exTrips 2)[0].cost = 2 := by decide
  rw [hcost] at hsp
  norm_num at hv
  show (2 : ℚ) ≤ x' .makespan
  rw [hv] at hsp
  linarith

end Master

end Vrpy
