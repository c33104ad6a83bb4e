import Verif.Proofs.MasterValue
import Verif.Props.TerminationTimed
import Verif.Props.EndToEndLP

/-!
# C59: column generation without diving ends because the value of the master problem takes finitely many values only

The loop stops after 1000 iterations without improvement (`vrpy/vrp.py:542-544`).  There are finitely many columns, apart from
their names.  A column that is in the pool often enough already does not change the value of the relaxed master problem if it
is found again.  So, if the relaxed master problems are solved to optimality, the loop ends, whatever the pricing problems
answer and whatever the dual values are.
-/

namespace Vrpy

open Spec

/-- What is asked of the solver of the relaxed master problems: an answer called optimal is optimal. -/
def Spec.RelaxedExact (master : Nat → LP MVar → Master.Answer) : Prop :=
  ∀ t (M : Master) cols, (master t (M.lp cols true)).optimal = true →
    (M.lp cols true).Optimal (master t (M.lp cols true)).point

/-- The lists of different nodes. -/
def Net.nodeLists (G : Net) : List (List Node) := G.nodes.sublists.flatMap List.permutations

theorem Net.mem_nodeLists {G : Net} {l : List Node} (hn : l.Nodup) (h : ∀ v ∈ l, v ∈ G.nodes) : l ∈ G.nodeLists := by
  obtain ⟨l', hl, hs⟩ := hn.subperm h
  simp only [Net.nodeLists, List.mem_flatMap, List.mem_sublists, List.mem_permutations]
  exact ⟨l', hs, hl.symm⟩

/-- All columns that pricing can find, apart from their names. -/
def Net.keyList (G : Net) (K : Nat) : List (List Node × ℚ × Nat) :=
  ((G.nodeLists ×ˢ G.arcLists) ×ˢ List.range K).map
    (fun x => (x.1.1, (x.1.2.map (fun e => (G.cost e.1 e.2).getD x.2 0)).sum, x.2))

theorem mem_keyList {G : Net} (hG : WellFormed G) {K : Nat} {c : Column} {es es' : List (Node × Node)} (hpath : c.path = none)
    (hnodes : c.nodes = graphNodes es') (hes' : ∀ e ∈ es', e.2 ∈ G.succ e.1) (hn : es.Nodup) (hes : ∀ e ∈ es, e.2 ∈ G.succ e.1)
    (hcost : c.cost = (es.map (fun e => (G.cost e.1 e.2).getD c.vehicleType 0)).sum) (hk : c.vehicleType < K) :
    c.key ∈ G.keyList K := by
  have hv : c.visited false = (graphNodes es').filter (fun v => v ≠ Node.source ∧ v ≠ Node.sink) := by
    unfold Column.visited
    rw [hpath, hnodes]
  refine List.mem_map.2 ⟨((c.visited false, es), c.vehicleType), ?_, by rw [Column.key, hcost]⟩
  refine List.mem_product.2 ⟨List.mem_product.2 ⟨Net.mem_nodeLists ?_ ?_, Net.mem_arcLists hn ?_⟩, List.mem_range.2 hk⟩
  · rw [hv]
    exact (nodup_graphNodes _).filter _
  · intro v hm
    rw [hv] at hm
    obtain ⟨e, he, h⟩ := (mem_graphNodes _ _).1 (List.mem_filter.1 hm).1
    have := hG.edge_mem _ _ (hes' e he)
    rcases h with rfl | rfl
    · exact this.1
    · exact this.2
  · intro e he
    exact ⟨(hG.edge_mem _ _ (hes e he)).1, hes e he⟩

theorem keyList_cost {G : Net} {K : Nat} (hcost : ∀ k u v, v ∈ G.succ u → 0 ≤ (G.cost u v).getD k 0)
    {x : List Node × ℚ × Nat} (hx : x ∈ G.keyList K) : 0 ≤ x.2.1 := by
  obtain ⟨⟨⟨l, es⟩, k⟩, h, rfl⟩ := List.mem_map.1 hx
  have h2 := (List.mem_product.1 (List.mem_product.1 h).1).2
  simp only [Net.arcLists, List.mem_flatMap, List.mem_sublists, List.mem_permutations] at h2
  obtain ⟨l', hs, hp⟩ := h2
  refine List.sum_nonneg (fun x hx => ?_)
  obtain ⟨e, he, rfl⟩ := List.mem_map.1 hx
  have := hs.subset (hp.subset he)
  simp only [Net.arcs, List.mem_flatMap, List.mem_map] at this
  obtain ⟨u, _, v, hv, rfl⟩ := this
  exact hcost k u v hv

/-- No edge of the network searched is there twice. -/
theorem subProblem_edges {G : Net} {d : Duals} {k : Nat} {route : Option ColName} {paths : PathsOracle} {s : Strategy}
    {w : Node → Node → ℚ} {S : SubGraph} (hG : WellFormed G)
    (h : subProblem G d k route paths s = .ok (w, S)) : S.G.edges.Nodup := by
  have key : S.G.nodes.Sublist G.nodes ∧ ∀ u, (S.G.succ u).Sublist (G.succ u) := by
    unfold subProblem at h
    cases hw : reducedCosts G d k route with
    | error e => simp [hw] at h
    | ok w' =>
      simp only [hw] at h
      cases s with
      | exact =>
        simp only [Except.ok.injEq, Prod.mk.injEq] at h
        obtain ⟨_, rfl⟩ := h
        exact ⟨List.Sublist.refl _, fun _ => List.Sublist.refl _⟩
      | bestEdges1 alpha =>
        simp only at h
        cases hr : removeEdges1 G d k alpha with
        | error e => simp [hr] at h
        | ok S' =>
          simp only [hr, Except.ok.injEq, Prod.mk.injEq] at h
          obtain ⟨_, rfl⟩ := h
          unfold removeEdges1 at hr
          split at hr
          · cases hr
          · cases hr
            exact ⟨List.Sublist.refl _, fun _ => List.filter_sublist⟩
      | bestEdges2 ratio =>
        simp only [Except.ok.injEq, Prod.mk.injEq] at h
        obtain ⟨_, rfl⟩ := h
        exact ⟨List.Sublist.refl _, fun _ => List.filter_sublist⟩
      | bestPaths beta =>
        simp only at h
        cases hr : removeEdges3 G w' paths beta with
        | error e => simp [hr] at h
        | ok S' =>
          simp only [hr, Except.ok.injEq, Prod.mk.injEq] at h
          obtain ⟨_, rfl⟩ := h
          unfold removeEdges3 at hr
          split at hr
          · cases hr
          · simp only at hr
            split at hr
            · cases hr
            · cases hr
              exact ⟨List.filter_sublist, fun u => List.filter_sublist⟩
  unfold Net.edges
  rw [List.nodup_flatMap]
  refine ⟨fun u _ => ((hG.succ_nodup u).sublist (key.2 u)).map (fun a b hab => (Prod.mk.inj hab).2), ?_⟩
  refine (hG.nodes_nodup.sublist key.1).imp ?_
  intro u v huv
  simp only [Function.onFun, List.disjoint_left, List.mem_map, not_exists, not_and]
  rintro x ⟨a, _, rfl⟩ b _ he
  exact huv (Prod.mk.inj he).1.symm

namespace Solve

variable {cfg : SolveCfg} {env : Env} {dive : Bool}

/-- Pricing by LP, and greedy pricing, find nothing else. -/
theorem priced_keys {d : Duals} (hcspy : cfg.cspy = false) (hG : WellFormed cfg.M.G) :
    PriceOk cfg env d (fun c => c.key ∈ cfg.M.G.keyList cfg.K) := by
  constructor
  · intro k hk t route cols s cols' _ h c hc
    unfold price at h
    cases hs : subProblem cfg.M.G d k route (env.paths t) s with
    | error e => simp [hs] at h
    | ok wS =>
      obtain ⟨w, S⟩ := wS
      simp only [hs, hcspy, Bool.false_eq_true, if_false, PricingLP.solve] at h
      have hsub := C15_subgraph hs
      have hnd := subProblem_edges hG hs
      split at h
      · cases h
      · split at h
        · cases h
        · split at h
          · cases h
          · split at h
            · split at h
              · cases h
              · rename_i p _ z _ _ cols1 hadd
                simp only [Except.ok.injEq, Prod.mk.injEq, and_true] at h
                subst h
                unfold PricingLP.addRoute at hadd
                split at hadd
                · cases hadd
                · rename_i x hsum
                  split at hadd
                  · cases hadd
                  · simp only [Except.ok.injEq] at hadd
                    subst hadd
                    rcases List.mem_append.1 hc with hc | hc
                    · exact Or.inl hc
                    · right
                      simp only [List.mem_singleton] at hc
                      subst hc
                      obtain ⟨h1, h2⟩ := sumEdgeCosts_ok.1 hsum
                      have harc := fun e he => hsub.arcs _ _ (h1 e he).1
                      refine mem_keyList hG rfl rfl harc (hnd.filter _) harc ?_ hk
                      simp only [hsub.cost] at h2
                      exact h2
            · cases h
  · intro k hk st st' h c hc
    unfold greedyPhase at h
    split at h
    · simp only [py_bind_ok] at h
      obtain ⟨p, _, cap, _, r, hr, h⟩ := h
      have hcols : st'.cols = r.1 := by
        split at h
        · exact addMissing_cols h
        · simp only [pure, Except.pure, Except.ok.injEq] at h
          rw [← h]
      rw [hcols] at hc
      obtain ⟨new, hnew, _, hall⟩ := solve_columns (cols' := r.1) (more := r.2) hr
      rcases greedy_no_path hr c hc with hin | hpath
      · exact Or.inl hin
      rw [hnew] at hc
      rcases List.mem_append.1 hc with hc | hc
      · exact Or.inl hc
      · right
        obtain ⟨ht, _, _, s, _, _, h1, h2, h3⟩ := hall c hc
        simp only at ht h3
        obtain ⟨h4, h5⟩ := sumEdgeCosts_ok.1 h3
        exact mem_keyList hG hpath h1 (fun e he => (h4 e ((mem_graphEdges _ _).2 he)).1) (nodup_graphEdges _)
          (fun e he => (h4 e he).1) h5 (ht ▸ hk)
    · simp only [Except.ok.injEq] at h
      subst h
      exact Or.inl hc

/-- How many more copies of columns can be added before the value stays the same. -/
def missing (M : Master) (keys : List (List Node × ℚ × Nat)) (cols : List Column) : Nat :=
  (keys.map (fun x => M.copies - cols.countP (fun c => c.key = x))).sum

theorem missing_le (M : Master) (keys : List (List Node × ℚ × Nat)) (cols : List Column) :
    missing M keys cols ≤ keys.length * M.copies := by
  unfold missing
  have : (keys.map (fun x => M.copies - cols.countP (fun c => c.key = x))).sum ≤ (keys.map (fun _ => M.copies)).sum :=
    List.sum_le_sum (fun x _ => Nat.sub_le _ _)
  rwa [List.map_const', List.sum_replicate, nsmul_eq_mul, Nat.cast_id] at this

theorem sum_lt_of {α : Type} {f g : α → Nat} {l : List α} (hle : ∀ x ∈ l, f x ≤ g x) {y : α} (hy : y ∈ l) (hlt : f y < g y) :
    (l.map f).sum < (l.map g).sum := by
  induction l with
  | nil => cases hy
  | cons x l ih =>
    have h1 := hle x List.mem_cons_self
    simp only [List.map_cons, List.sum_cons]
    rcases List.mem_cons.1 hy with rfl | hy
    · have : (l.map f).sum ≤ (l.map g).sum := List.sum_le_sum (fun x hx => hle x (List.mem_cons_of_mem _ hx))
      omega
    · have := ih (fun x hx => hle x (List.mem_cons_of_mem _ hx)) hy
      omega

/-- Either fewer copies are missing afterwards, or all new columns are there often enough already. -/
theorem missing_append {M : Master} {keys : List (List Node × ℚ × Nat)} {cols new : List Column}
    (hnew : ∀ c ∈ new, c.key ∈ keys) : missing M keys (cols ++ new) < missing M keys cols ∨
      missing M keys (cols ++ new) = missing M keys cols ∧ ∀ c ∈ new, M.copies ≤ cols.countP (fun c' => c'.key = c.key) := by
  have hle : ∀ x ∈ keys, M.copies - (cols ++ new).countP (fun c => c.key = x) ≤ M.copies - cols.countP (fun c => c.key = x) := by
    intro x _
    rw [List.countP_append]
    omega
  by_cases h : ∀ c ∈ new, M.copies ≤ cols.countP (fun c' => c'.key = c.key)
  · refine Or.inr ⟨?_, h⟩
    unfold missing
    congr 1
    refine List.map_congr_left (fun x _ => ?_)
    rw [List.countP_append]
    by_cases h0 : new.countP (fun c => c.key = x) = 0
    · rw [h0, Nat.add_zero]
    · obtain ⟨c, hc, hk⟩ := List.countP_pos_iff.1 (Nat.pos_of_ne_zero h0)
      have := h c hc
      simp only [decide_eq_true_eq] at hk
      rw [hk] at this
      omega
  · left
    push Not at h
    obtain ⟨c, hc, hlt⟩ := h
    refine sum_lt_of hle (hnew c hc) ?_
    rw [List.countP_append]
    have : 0 < new.countP (fun c' => c'.key = c.key) := List.countP_pos_iff.2 ⟨c, hc, by simp⟩
    omega

/-- If the value is that of the last iteration, the counter goes up. -/
theorem count_same {cost : ℚ} {st st' : SolveState} (h : count dive cost st = .ok st') (hi : 0 < st.iteration)
    (hb : st.bounds.getLast? = some cost) : st'.noImprovement = st.noImprovement + 1 := by
  unfold count at h
  simp only [hb, if_true] at h
  rw [if_pos (by omega)] at h
  cases h
  rfl

/-- The relaxed master problem is solved, and its value found. -/
theorem solveMaster_value {st st1 : SolveState} {d : Duals} {cost : ℚ} (hex : RelaxedExact env.master) (hi : Inv st)
    (h : solveMaster cfg env false st = .ok (d, cost, st1)) :
    ∃ p, (cfg.M.lp st.cols true).Optimal p ∧ cost = (cfg.M.lp st.cols true).obj.eval p := by
  simp only [solveMaster, Bool.false_eq_true, if_false, solveRelaxed] at h
  split at h
  · rename_i ho
    simp only [Except.ok.injEq, Prod.mk.injEq] at h
    rw [hi.2] at ho h
    exact ⟨_, hex _ _ _ ho, h.2.1.symm⟩
  · cases h

/-- The state after `n` iterations: there were not more of them than one after each decrease of the missing copies
and 1001 after that, and if none were missing in the last iteration, the value is still the one found there. -/
theorem value_trace {keys : List (List Node × ℚ × Nat)} {st st' : SolveState} {n : Nat} (hspan : cfg.M.globalSpan = false)
    (hex : RelaxedExact env.master) (hprice : ∀ d, PriceOk cfg env d (fun c => c.key ∈ keys))
    (hcost : ∀ x ∈ keys, 0 ≤ x.2.1) (hinv : Inv st) (hq : ∀ c ∈ st.cols, c.key ∈ keys)
    (ht : Trace cfg env false st n st') :
    Inv st' ∧ (∀ c ∈ st'.cols, c.key ∈ keys) ∧ missing cfg.M keys st'.cols ≤ missing cfg.M keys st.cols ∧ n ≤ st'.iteration ∧
      (n + 1002 * missing cfg.M keys st'.cols ≤ 1002 * missing cfg.M keys st.cols ∨
        0 < n ∧ n + 1002 * missing cfg.M keys st'.cols ≤ 1002 * missing cfg.M keys st.cols + st'.noImprovement + 1 ∧
        ∃ x, st'.bounds.getLast? = some x ∧
          ∀ p, (cfg.M.lp st'.cols true).Optimal p → (cfg.M.lp st'.cols true).obj.eval p = x) := by
  induction ht with
  | zero => exact ⟨hinv, hq, le_refl _, Nat.zero_le _, Or.inl (by omega)⟩
  | @snoc n a b h1 h2 h3 h4 ih =>
    obtain ⟨i1, i2, i3, i4, i5⟩ := ih
    obtain ⟨j1, new, j2, j3⟩ := findColumns_step i1 (fun d _ _ _ => hprice d) h4
    obtain ⟨d, cost, st1, hh, st2, st3, e1, e2, e3, e4⟩ := findColumns_inv h4
    obtain ⟨p, hp, hpc⟩ := solveMaster_value hex i1 e1
    obtain ⟨m1, m2, m3, m4, m5, _⟩ := solveMaster_step e1
    obtain ⟨n1, n2, n3, n4, _, _, _, _, n5⟩ := nextStrategy_step e2
    have hinv2 : Inv st2 := by
      unfold Inv
      rw [n1, n2, m1, m2]
      exact i1
    obtain ⟨_, _, k, _⟩ := vehicleLoop_step (Q := fun _ => True) PriceOk.true (Or.inr fun _ => trivial)
      (fun k hk => List.mem_range.1 hk) hinv2 e3
    obtain ⟨_, _, c3, _, _, _, _, _, c5, _⟩ := count_step e4
    have hb : b.bounds.getLast? = some cost := by
      rw [c5]
      simp
    have hnew : ∀ c ∈ new, c.key ∈ keys := fun c hc => (j3 c hc).elim id (i2 c)
    have hkeys : ∀ c ∈ b.cols, c.key ∈ keys := by
      intro c hc
      rw [j2] at hc
      rcases List.mem_append.1 hc with h | h
      · exact i2 c h
      · exact hnew c h
    have hit : n + 1 ≤ b.iteration := by
      rw [c3, k.iteration, n3, m3]
      omega
    have hno : 0 < n → a.noImprovement ≤ 1000 := by
      intro h0
      rcases h3 with h | h
      · omega
      · have := h.2
        simp only [limitReached, Bool.or_eq_false_iff, decide_eq_false_iff_not] at this
        omega
    rcases missing_append (M := cfg.M) (cols := a.cols) hnew with hlt | ⟨heq, hmany⟩
    · rw [← j2] at hlt
      refine ⟨j1, hkeys, by omega, hit, Or.inl ?_⟩
      rcases i5 with h | ⟨h0, h, _⟩
      · omega
      · have := hno h0
        omega
    · rw [← j2] at heq
      refine ⟨j1, hkeys, by omega, hit, Or.inr ⟨by omega, ?_, cost, hb, ?_⟩⟩
      · rcases i5 with h | ⟨h0, h, x, hx, hval⟩
        · omega
        · have hcx : cost = x := by rw [hpc]; exact hval p hp
          have hup := count_same e4 (by rw [k.iteration, n3, m3]; omega) (by rw [k.bounds, n4, m5, hx, hcx])
          rw [k.noImprovement] at hup
          rcases n5 with h5 | ⟨h5, _⟩
          · rw [h5, m4] at hup
            omega
          · rw [h5, m3] at hup
            omega
      · intro q hq'
        rw [hpc]
        have hnd := j1.1.nodup
        rw [j2] at hq' hnd ⊢
        exact value_same hspan hnd (fun c hc => ⟨hcost _ (hnew c hc), hmany c hc⟩) hp hq'

/-- **C59**, LP pricing, without diving, without global span.  If the relaxed master problems are solved to optimality and nothing
costs less than 0, column generation ends, whatever the pricing problems answer and whatever the dual values are, for all
kinds of problems. -/
theorem C59_loop_lp {st : SolveState} {fuel : Nat} (hcspy : cfg.cspy = false) (hG : WellFormed cfg.M.G)
    (hcost : ∀ k u v, v ∈ cfg.M.G.succ u → 0 ≤ (cfg.M.G.cost u v).getD k 0) (hspan : cfg.M.globalSpan = false)
    (hex : RelaxedExact env.master) (hnum : Numbered st.cols) (hm : st.mcols = st.cols) (hq : ∀ c ∈ st.cols, 0 ≤ c.cost)
    (hfuel : 1002 * ((st.cols.length + (cfg.M.G.keyList cfg.K).length) * cfg.M.copies) + 1002 ≤ fuel) :
    columnGeneration cfg env false fuel st ≠ .ok none := by
  intro h
  obtain ⟨st', ht, _, hgo⟩ := columnGeneration_none h
  have hkey : ∀ d, PriceOk cfg env d (fun c => c.key ∈ st.cols.map Column.key ++ cfg.M.G.keyList cfg.K) := by
    intro d
    have := priced_keys (env := env) (d := d) hcspy hG
    exact ⟨fun k hk t r cols s cols' hs hp c hc => (this.1 k hk t r cols s cols' hs hp c hc).imp id (List.mem_append_right _),
      fun k hk s s' hg c hc => (this.2 k hk s s' hg c hc).imp id (List.mem_append_right _)⟩
  have hpos : ∀ x ∈ st.cols.map Column.key ++ cfg.M.G.keyList cfg.K, 0 ≤ x.2.1 := by
    intro x hx
    rcases List.mem_append.1 hx with hx | hx
    · obtain ⟨c, hc, rfl⟩ := List.mem_map.1 hx
      exact hq c hc
    · exact keyList_cost hcost hx
  obtain ⟨_, _, _, _, hn⟩ := value_trace hspan hex hkey hpos ⟨hnum, hm⟩
    (fun c hc => List.mem_append_left _ (List.mem_map_of_mem hc)) ht
  have hle := missing_le cfg.M (st.cols.map Column.key ++ cfg.M.G.keyList cfg.K) st.cols
  rw [List.length_append, List.length_map] at hle
  have hno : 0 < fuel → st'.noImprovement ≤ 1000 := by
    intro h0
    rcases hgo with h | h
    · omega
    · have := h.2
      simp only [limitReached, Bool.or_eq_false_iff, decide_eq_false_iff_not] at this
      omega
  have := hno (by omega)
  rcases hn with hn | ⟨_, hn, _⟩
  · omega
  · omega

/-- The whole run without diving. -/
theorem run_value {st : SolveState} {fuel : Nat} {old : List Column} (hcspy : cfg.cspy = false) (hG : WellFormed cfg.M.G)
    (hcost : ∀ k u v, v ∈ cfg.M.G.succ u → 0 ≤ (cfg.M.G.cost u v).getD k 0) (hspan : cfg.M.globalSpan = false)
    (hex : RelaxedExact env.master) (hnum : Numbered st.cols) (hm : st.mcols = st.cols) (hq : ∀ c ∈ st.cols, 0 ≤ c.cost)
    (hfuel : 1002 * ((st.cols.length + (cfg.M.G.keyList cfg.K).length) * cfg.M.copies) + 1002 ≤ fuel) :
    run cfg env false old fuel st ≠ .ok none := by
  intro h
  have hloop := C59_loop_lp hcspy hG hcost hspan hex hnum hm hq hfuel
  unfold run at h
  split at h
  · cases h
  · rename_i h1
    exact hloop h1
  · simp only [Bool.false_eq_true, if_false] at h
    split at h <;> cases h

end Solve

/-- The initial columns cost nothing less than 0. -/
theorem initial_cost {P' P'' : Vrp} {N3 : Net} {cw : ℚ → CWOracle} {fuel : Nat} {cols : List Column}
    (hcost : ∀ u v, v ∈ N3.succ u → 0 ≤ (N3.cost u v).getD 0 0)
    (h : P'.initialize N3 cw fuel = .ok (some (P'', cols))) : ∀ c ∈ cols, 0 ≤ c.cost := by
  intro c hc
  unfold Vrp.initialize at h
  cases hch : P'.chooseInitial N3 cw fuel with
  | error e => simp [hch] at h
  | ok x =>
    cases x with
    | none => simp [hch] at h
    | some rs =>
      simp only [hch] at h
      cases hcv : convertRoutes N3 (capacities P'.loadCapacity.toList) rs with
      | error e => simp [hcv] at h
      | ok cols' =>
        simp only [hcv, Except.ok.injEq, Option.some.injEq, Prod.mk.injEq] at h
        obtain ⟨_, rfl⟩ := h
        have hall := py_mapM_ok.1 hcv
        obtain ⟨p, hcp⟩ : ∃ p : List Node × Nat, convertRoute N3 (capacities P'.loadCapacity.toList) p.2 p.1 = .ok c := by
          obtain ⟨i, hi, rfl⟩ := List.getElem_of_mem hc
          exact ⟨_, (List.forall₂_iff_get.1 hall).2 i (by rw [hall.length_eq]; exact hi) hi⟩
        unfold convertRoute at hcp
        cases hs : sumEdgeCosts N3 0 (consecutive p.1) with
        | error e => simp [hs] at hcp
        | ok q =>
          obtain ⟨h1, h2⟩ := sumEdgeCosts_ok.1 hs
          simp only [hs] at hcp
          split at hcp
          · cases hcp
          · cases hcp
            show 0 ≤ q
            rw [h2]
            refine List.sum_nonneg (fun x hx => ?_)
            obtain ⟨e, he, rfl⟩ := List.mem_map.1 hx
            exact hcost _ _ (h1 e he).1

/-- **C59**, without diving: `solve()` ends, with LP pricing and with cspy, for every problem (capacities, time windows,
pickup and delivery, collection, periodic, all options) and every preassignment, without time or iteration limit, if no arc
costs less than 0 and the relaxed master problems are solved to optimality.  Nothing is asked of the dual values or of the
answers to the pricing problems. -/
theorem C59_terminates {w : World} {a : SolveArgs} {P0 : Vrp} {o : Obj} (hwf : P0.G.WF)
    (hcust : ∃ n, Node.cust n ∈ P0.G.nodes) (hdoc : CostsAsDocumented P0)
    (hdem : ∀ v ∈ P0.G.nodes, P0.pickupDelivery = false ∨ v = .source ∨ v = .sink → 0 ≤ userDemand P0.G v)
    (hcost : ∀ k u v, UserArc P0.G u v → 0 ≤ userArcCost P0 k u v) (hmaster : RelaxedExact w.master)
    (hdive : a.dive = false) (hc : Obj.create P0 = .ok o) :
    ∃ n outcome, (∀ fuel, n ≤ fuel → o.solve w a fuel = outcome) ∧ outcome ≠ .ok none := by
  rcases Bool.eq_false_or_eq_true P0.minimizeGlobalSpan with hspan | hspan
  · exact C59_terminates_span hwf hcust hdoc hdem hspan hc
  rcases Bool.eq_false_or_eq_true a.cspy with hcspy | hcspy
  · exact C59_terminates_cspy hwf hcust hdoc hdem hcspy hc
  refine solve_ends (fun P' hs => chooseInitial_locked hwf hcust hdoc hdem hc hs) ?_
  intro P' fuel0 rs cols hs hi hnum
  obtain ⟨K, N, N3, _, S⟩ := searched_locked (w := w) hwf hcust hdoc hdem hc hs
  obtain ⟨f1, f2, f3, f4, f5, f6, f7, f8, f9, f10, f11⟩ := S.fields
  have hN3 : P'.G.toNet = N3 := by
    have := S.graph
    simp only at this
    rw [this]
    rfl
  have hpos : ∀ k u v, v ∈ P'.G.toNet.succ u → 0 ≤ (P'.G.toNet.cost u v).getD k 0 := by
    rw [hN3]
    exact fun k u v hv => S.cost_nonneg (without_cost_nonneg hwf hcost) k (S.same.succ u v hv)
  have hwfN : WellFormed P'.G.toNet := by
    rw [hN3]
    exact S.wfSearch
  rw [hdive]
  exact ⟨_, Solve.run_value hcspy hwfN hpos (f9.trans hspan) hmaster hnum rfl
    (initial_cost (fun u v hv => hpos 0 u v hv) hi) le_rfl⟩

/-! ## The hypotheses can hold -/

open Classical in
/-- A solver of the master problems that finds an optimal point if there is one; its dual values are far too large, so
that the pricing problems find the same routes again and again. -/
noncomputable def exactMaster : Nat → LP MVar → Master.Answer := fun _ prob =>
  if h : ∃ p, prob.Optimal p then ⟨true, h.choose, fun _ => 1000, fun _ => 0, fun _ => 0⟩
  else ⟨false, fun _ => 0, fun _ => 0, fun _ => 0, fun _ => 0⟩

theorem exactMaster_exact : RelaxedExact exactMaster := by
  intro t M cols h
  unfold exactMaster at h ⊢
  split at h
  · rename_i hex
    rw [dif_pos hex]
    exact hex.choose_spec
  · cases h

/-- Time windows and collection, LP pricing, every solver of the pricing problems. -/
example (w : World) : ∃ o, Obj.create exBoth = .ok o ∧
    ∃ n outcome, (∀ fuel, n ≤ fuel →
      o.solve { w with master := exactMaster } { windowsDiveArgs with dive := false } fuel = outcome) ∧ outcome ≠ .ok none := by
  have hok : (Obj.create exBoth).toOption.isSome = true := by decide +kernel
  cases ho : Obj.create exBoth with
  | error e => rw [ho] at hok; cases hok
  | ok o => exact ⟨o, rfl, C59_terminates exBoth_ok.wf exBoth_ok.customer exBoth_ok.costs
    (fun v hv _ => exBoth_ok.demand v hv) exBoth_cost_nonneg exactMaster_exact rfl ho⟩

end Vrpy
