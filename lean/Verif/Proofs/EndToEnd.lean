import Verif.Proofs.Object
import Verif.Props.Solve
import Verif.Props.Cspy
import Verif.Props.MasterCases
import Verif.Props.InitialSolution

/-!
# From the pool of columns to the routes of a plan
-/

namespace Vrpy

open Spec

/-- Contract of `shortest_simple_paths` for every graph, weights and number of paths (`Spec.BestSimplePaths`). -/
def Spec.PathsOk (paths : PathsOracle) : Prop :=
  ∀ (G : Net) (w : Node → Node → ℚ) (beta : Nat), WellFormed G → BestSimplePaths G w beta (paths G w beta)

/-- The graph of the pricing problem is well formed, whatever the strategy. -/
theorem subProblem_wf {G : Net} {d : Duals} {k : Nat} {route : Option ColName} {paths : PathsOracle} {s : Strategy}
    {w : Node → Node → ℚ} {S : SubGraph} (hG : WellFormed G) (hpaths : PathsOk paths)
    (h : subProblem G d k route paths s = .ok (w, S)) : WellFormed S.G := by
  unfold subProblem at h
  cases hw : reducedCosts G d k route with
  | error e => simp [hw] at h
  | ok w' =>
    simp only [hw] at h
    cases s with
    | exact =>
      simp only [Except.ok.injEq, Prod.mk.injEq] at h
      obtain ⟨_, rfl⟩ := h
      exact hG
    | bestEdges1 alpha =>
      simp only at h
      cases hr : removeEdges1 G d k alpha with
      | error e => simp [hr] at h
      | ok S' =>
        simp only [hr, Except.ok.injEq, Prod.mk.injEq] at h
        obtain ⟨_, rfl⟩ := h
        unfold removeEdges1 at hr
        split at hr
        · cases hr
        · cases hr
          exact removeEdges_wf hG _
    | bestEdges2 ratio =>
      simp only [Except.ok.injEq, Prod.mk.injEq] at h
      obtain ⟨_, rfl⟩ := h
      exact removeEdges_wf hG _
    | bestPaths beta =>
      simp only at h
      cases hr : removeEdges3 G w' paths beta with
      | error e => simp [hr] at h
      | ok S' =>
        simp only [hr, Except.ok.injEq, Prod.mk.injEq] at h
        obtain ⟨_, rfl⟩ := h
        obtain ⟨pw, ps, _, hbest, hne, _, hsucc, hnodes⟩ :=
          C15_best_paths hG (fun pw _ => hpaths G pw beta hG) hr
        have hsub : S'.G.nodes.Sublist G.nodes ∧ ∀ u, (S'.G.succ u).Sublist (G.succ u) := by
          unfold removeEdges3 at hr
          split at hr
          · cases hr
          · simp only at hr
            split at hr
            · cases hr
            · cases hr
              exact ⟨List.filter_sublist, fun u => List.filter_sublist⟩
        obtain ⟨p, hp⟩ := List.exists_mem_of_ne_nil _ hne
        obtain ⟨⟨h1, h2, _⟩, _⟩ := hbest.simple p hp
        refine ⟨hG.nodes_nodup.sublist hsub.1, fun u => (hG.succ_nodup u).sublist (hsub.2 u), ?_, ?_, ?_, ?_, ?_⟩
        · intro u v hv
          obtain ⟨q, hq, huv⟩ := (hsucc u v).1 hv
          exact ⟨(hnodes u).2 ⟨q, hq, fst_mem_of_consecutive huv⟩, (hnodes v).2 ⟨q, hq, snd_mem_of_consecutive huv⟩⟩
        · exact (hnodes _).2 ⟨p, hp, List.mem_of_mem_head? h1⟩
        · exact (hnodes _).2 ⟨p, hp, List.mem_of_mem_getLast? h2⟩
        · intro u hu
          exact hG.no_into_source u ((hsub.2 u).subset hu)
        · exact List.eq_nil_of_subset_nil (fun v hv => by
            have := (hsub.2 .sink).subset hv
            rwa [hG.no_out_of_sink] at this)

/-- A column stands for a simple route of `G` that its vehicle type can drive within the limits, or is marked as one that
repeats customers. -/
def Spec.GoodColumn (G : Net) (K : Nat) (caps : List ℚ) (lim : Option Nat) (c : Column) : Prop :=
  c.vehicleType < K ∧ ((∃ n, c.name = .nonElem n) ∨ ∃ r, IsSimpleRoute G r ∧ Draws c r ∧
    WithinStops lim (stops r).length ∧ WithinCapacity caps c.vehicleType (load G r))

/-- A column stands for a simple route of `G` that its vehicle type can drive within the limits. -/
def Spec.RouteColumn (G : Net) (K : Nat) (caps : List ℚ) (lim : Option Nat) (c : Column) : Prop :=
  c.vehicleType < K ∧ ∃ r, IsSimpleRoute G r ∧ Draws c r ∧
    WithinStops lim (stops r).length ∧ WithinCapacity caps c.vehicleType (load G r)

theorem Spec.RouteColumn.good {G : Net} {K : Nat} {caps : List ℚ} {lim : Option Nat} {c : Column}
    (h : RouteColumn G K caps lim c) : GoodColumn G K caps lim c := ⟨h.1, Or.inr h.2⟩

theorem isSimpleRoute_mono {G H : Net} (hn : ∀ v ∈ H.nodes, v ∈ G.nodes) (hs : ∀ u v, v ∈ H.succ u → v ∈ G.succ u)
    {r : List Node} (h : IsSimpleRoute H r) : IsSimpleRoute G r := by
  obtain ⟨⟨mid, rfl, h1, h2⟩, h3⟩ := h
  refine ⟨⟨mid, rfl, fun v hv => ⟨(h1 v hv).1, hn v (h1 v hv).2⟩, ?_⟩, h3⟩
  rw [along_iff] at h2 ⊢
  exact fun u v huv => hs u v (h2 u v huv)

theorem load_congr {G H : Net} (h : H.demand = G.demand) (r : List Node) : load H r = load G r := by
  unfold load
  rw [h]

/-- The columns of the greedy pricing have no attribute `path`. -/
theorem greedy_no_path {g : GreedyPricing} {keys : List Node} {rand : Nat → Nat → Nat} {fuel nRuns : Nat}
    {cols cols' : List Column} {more : Bool} (h : g.solve keys rand fuel nRuns cols = .ok (cols', more)) :
    ∀ c ∈ cols', c ∈ cols ∨ c.path = none := by
  have key := foldlM_inv (P := fun st : List Column × Bool => ∀ c ∈ st.1, c ∈ cols ∨ c.path = none) _ _ _
    (fun c hc => Or.inl hc) ?_ h
  · exact key
  · rintro st job st' _ hst hstep
    unfold GreedyPricing.attempt at hstep
    split at hstep
    · simp only [Except.ok.injEq] at hstep; subst hstep; exact hst
    · split at hstep
      · unfold GreedyPricing.addRoute at hstep
        simp only at hstep
        split at hstep
        · cases hstep
        · rename_i cols1 hcols
          split at hcols
          · cases hcols
          · split at hcols
            · cases hcols
            · simp only [Except.ok.injEq] at hcols hstep
              subst hcols
              subst hstep
              intro c hc
              rcases List.mem_append.1 hc with hc | hc
              · exact hst c hc
              · simp only [List.mem_singleton] at hc
                subst hc
                exact Or.inr rfl
      · simp only [Except.ok.injEq] at hstep; subst hstep; exact hst

namespace Solve

variable {cfg : SolveCfg} {env : Env}

theorem addMissing_cols {st st' : SolveState} (h : addMissing cfg st = .ok st') : st'.cols = st.cols := by
  refine foldlM_inv (P := fun s : SolveState => s.cols = st.cols) _ _ _ rfl ?_ h
  intro c a c' _ hc hs
  split at hs
  · cases hs; exact hc
  · unfold addToMaster at hs
    split at hs
    · cases hs
    · cases hs; exact hc

/-- The randomised greedy pricing yields good columns, whatever the dual values. -/
theorem greedy_good {d : Duals} (hG : WellFormed cfg.M.G)
    (hdem : cfg.M.G.demand .source = 0 ∧ cfg.M.G.demand .sink = 0) (hcpos : ∀ c ∈ cfg.caps, 0 < c) (k : Nat)
    (hk : k < cfg.K) (st st' : SolveState) (h : greedyPhase cfg env d k st = .ok st') :
    ∀ c ∈ st'.cols, c ∈ st.cols ∨ RouteColumn cfg.M.G cfg.K cfg.caps cfg.numStops c := by
  intro c hc
  unfold greedyPhase at h
  split at h
  · simp only [py_bind_ok] at h
    obtain ⟨p, hp, cap, hcap, r, hr, h⟩ := h
    have hcols : st'.cols = r.1 := by
      split at h
      · exact addMissing_cols h
      · simp only [pure, Except.pure, Except.ok.injEq] at h
        rw [← h]
    obtain ⟨new, hnew, hall⟩ := C12_feasible_partial (more := r.2) (cols' := r.1) hG hdem.1 hdem.2 hr
    rw [hcols] at hc
    rcases greedy_no_path hr c hc with h0 | hnone
    · exact Or.inl h0
    rw [hnew, List.mem_append] at hc
    rcases hc with hc | hc
    · exact Or.inl hc
    right
    obtain ⟨htype, q, henc, hq, hqcap, hqstops, _⟩ := hall c hc
    refine ⟨by rw [htype]; exact hk, q, hq, ⟨henc.nodes, henc.edges, ?_⟩, hqstops, ?_⟩
    · intro p hp
      rw [hnone] at hp
      cases hp
    · intro hne
      unfold greedyCap at hcap
      rw [if_neg hne] at hcap
      split at hcap
      · cases hcap
      · rename_i x hx
        simp only [Except.ok.injEq] at hcap
        refine ⟨x, by rw [htype]; exact hx, ?_⟩
        exact hqcap x hcap.symm (hcpos x (List.mem_of_getElem? hx)).ne'
  · cases h
    exact Or.inl hc

/-- Pricing with cspy (and the randomised greedy pricing before it) yields good columns, whatever the dual values. -/
theorem price_good {d : Duals} (hcspy : cfg.cspy = true) (hG : WellFormed cfg.M.G)
    (hdem : cfg.M.G.demand .source = 0 ∧ cfg.M.G.demand .sink = 0) (hser : cfg.M.G.service .sink = 0)
    (hcpos : ∀ c ∈ cfg.caps, 0 < c) (hsound : ∀ t q, CspySound q (env.cspy t q)) (hpaths : ∀ t, PathsOk (env.paths t)) :
    PriceOk cfg env d (GoodColumn cfg.M.G cfg.K cfg.caps cfg.numStops) := by
  constructor
  · intro k hk t route cols s cols' _ h c hc
    unfold price at h
    cases hs : subProblem cfg.M.G d k route (env.paths t) s with
    | error e => simp [hs] at h
    | ok wS =>
      obtain ⟨w, S⟩ := wS
      simp only [hs, hcspy, if_true] at h
      have hsub := C15_subgraph hs
      obtain ⟨col, r, rfl, hpath, htype, hroute, _, hstops, hcap, _, _, henc, hnon, _⟩ :=
        C21_columns_partial (subProblem_wf hG (hpaths t) hs) (by rw [hsub.demand]; exact hdem.1)
          (by rw [hsub.service]; exact hser) (hsound t _) h
      rw [List.mem_append, List.mem_singleton] at hc
      rcases hc with hc | rfl
      · exact Or.inl hc
      right
      refine ⟨by rw [htype]; exact hk, ?_⟩
      by_cases hnd : r.Nodup
      · right
        obtain ⟨_, he⟩ := henc hnd
        refine ⟨r, isSimpleRoute_mono hsub.nodes hsub.arcs ⟨hroute, hnd⟩,
          ⟨he.nodes, he.edges, fun p hp => by rw [hpath] at hp; exact (Option.some.inj hp).symm⟩, hstops, ?_⟩
        rw [htype, ← load_congr hsub.demand]
        exact hcap
      · exact Or.inl ⟨_, hnon hnd⟩
  · intro k hk st st' h c hc
    exact (greedy_good hG hdem hcpos k hk st st' h c hc).imp_right RouteColumn.good

/-- What the final problem selects from: all columns found on the way satisfy `Q`. -/
theorem run_selected {Q : Column → Prop} {st st' : SolveState} {f : Final} {old : List Column} {fuel : Nat}
    (hnum : Numbered st.cols) (hm : st.mcols = st.cols) (hinit : ∀ c ∈ st.cols, Q c)
    (hprice : ∀ stm d cost st1, Inv stm → (∀ c ∈ stm.cols, Q c) → solveMaster cfg env false stm = .ok (d, cost, st1) →
      PriceOk cfg env d Q)
    (hmaster : ∀ t, MasterSolverSound (env.master t)) (hn : 2 < cfg.M.G.nodes.length)
    (h : run cfg env false old fuel st = .ok (some (st', f))) :
    ∃ p, (cfg.M.lp st'.cols false).Feasible p ∧ f.graphs = Master.selected st'.cols p ∧
      f.dropped = (if cfg.M.dropPenalty = 0 then none else some (cfg.M.dropped p)) ∧ Inv st' ∧
      st.cols <+: st'.cols ∧ ∀ c ∈ st'.cols, Q c := by
  unfold run at h
  cases h1 : columnGeneration cfg env false fuel st with
  | error e => simp [h1] at h
  | ok r =>
    cases r with
    | none => simp [h1] at h
    | some st1 =>
      simp only [h1, Bool.false_eq_true, if_false] at h
      obtain ⟨n, _, ht, _⟩ := columnGeneration_trace h1
      have key : ∀ n stn, Trace cfg env false st n stn → Inv stn ∧ st.cols <+: stn.cols ∧ ∀ c ∈ stn.cols, Q c := by
        intro n
        induction n using Nat.strong_induction_on with
        | _ n ih =>
          intro stn ht
          obtain ⟨a, b, c⟩ := Trace.pool (Q := Q) ⟨hnum, hm⟩ (fun m stm d cost st1 htm hlt hs =>
            hprice stm d cost st1 (ih m hlt stm htm).1 (ih m hlt stm htm).2.2 hs) ht
          exact ⟨a, b, fun x hx => (c x hx).elim (hinit x) id⟩
      obtain ⟨a, b, c⟩ := key n st1 ht
      cases h2 : solveMIP cfg env old st1 with
      | error e => simp [h2] at h
      | ok r =>
        simp only [h2, Except.ok.injEq, Option.some.injEq] at h
        subst h
        unfold solveMIP at h2
        rw [if_pos hn] at h2
        simp only at h2
        split at h2
        · rename_i hopt
          simp only [Except.ok.injEq, Prod.mk.injEq] at h2
          obtain ⟨rfl, rfl⟩ := h2
          have hf := hmaster _ _ hopt
          rw [a.2] at hf
          refine ⟨_, hf, ?_, by simp only [readOff, a.2], a, b, c⟩
          simp only [readOff, Master.selected, a.2]
          apply List.filter_congr
          intro x hx
          have : x.name ∈ st1.cols.map Column.name := List.mem_map_of_mem hx
          simp [this]
        · cases h2

end Solve

end Vrpy
