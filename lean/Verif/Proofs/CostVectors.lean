import Verif.Props.Defaults
import Verif.Proofs.Routes
import Mathlib.Data.List.Basic

/-! What the steps of `_pre_solve` do to the cost vectors. -/

namespace Vrpy

open Spec

theorem addFixedCost_ok {fc : List ℚ} {K : Nat} {c c' : Option Cost} (h : addFixedCost fc K c = .ok c') :
    ∃ cs cs', c = some (.list cs) ∧ c' = some (.list cs') ∧ cs'.length = cs.length ∧
      ∀ k, cs'.getD k 0 = cs.getD k 0 + if k < K then fc.getD k 0 else 0 := by
  cases c with
  | none => simp [addFixedCost] at h
  | some c =>
  cases c with
  | scalar _ => simp [addFixedCost] at h
  | list cs =>
    simp only [addFixedCost] at h
    cases hf : (List.range K).foldlM (addFixedCostAt fc) cs with
    | error e => simp [hf] at h
    | ok cs' =>
      simp only [hf, Except.ok.injEq] at h
      refine ⟨cs, cs', rfl, h.symm, ?_⟩
      clear h
      induction K generalizing cs' with
      | zero =>
        simp only [List.range_zero, List.foldlM_nil, pure, Except.pure, Except.ok.injEq] at hf
        subst hf; simp
      | succ K ih =>
        rw [List.range_succ, List.foldlM_append] at hf
        obtain ⟨cs1, h1, h2⟩ := py_bind_ok.1 hf
        obtain ⟨ihl, ihk⟩ := ih cs1 h1
        simp only [List.foldlM_cons, List.foldlM_nil, addFixedCostAt, bind_pure] at h2
        cases hfK : fc[K]? with
        | none => simp [hfK] at h2
        | some f =>
          cases haK : cs1[K]? with
          | none => simp [hfK, haK] at h2
          | some a =>
            simp only [hfK, haK, Except.ok.injEq] at h2
            subst h2
            refine ⟨by simp [ihl], ?_⟩
            intro k
            have hK : K < cs1.length := by
              by_contra hlt
              rw [List.getElem?_eq_none (by omega)] at haK
              cases haK
            by_cases hk : k = K
            · subst hk
              have e1 : cs1.getD k 0 = a := by simp [List.getD_eq_getElem?_getD, haK]
              have e2 : fc.getD k 0 = f := by simp [List.getD_eq_getElem?_getD, hfK]
              have := ihk k
              rw [e1] at this
              simp only [lt_irrefl, if_false, add_zero] at this
              simp [List.getD_eq_getElem?_getD, hK, hfK]
              rw [this, List.getD_eq_getElem?_getD]
            · have : (cs1.set K (a + f)).getD k 0 = cs1.getD k 0 := by
                simp [List.getD_eq_getElem?_getD, List.getElem?_set, Ne.symm hk]
              rw [this, ihk k]
              by_cases h1 : k < K
              · simp [h1, Nat.lt_succ_of_lt h1]
              · have : ¬ k < K + 1 := by omega
                simp [h1, this]

/-- The loop over the successors of Source changes exactly the costs of these arcs. -/
theorem addFixedCosts_ok {fc : List ℚ} {K : Nat} {G G' : DiGraph} (hnd : (G.succ .source).Nodup)
    (h : addFixedCosts fc K G = .ok G') :
    G'.nodes = G.nodes ∧ G'.nd = G.nd ∧ G'.succ = G.succ ∧
    (∀ u v, (G'.ed u v).time = (G.ed u v).time) ∧
    (∀ u v, ¬ (u = .source ∧ v ∈ G.succ .source) → G'.ed u v = G.ed u v) ∧
    (∀ v ∈ G.succ .source, ∃ cs cs', (G.ed .source v).cost = some (.list cs) ∧
      (G'.ed .source v).cost = some (.list cs') ∧ cs'.length = cs.length ∧
      ∀ k, cs'.getD k 0 = cs.getD k 0 + if k < K then fc.getD k 0 else 0) := by
  unfold addFixedCosts at h
  have := foldlM_prefix (P := fun pre H => H.nodes = G.nodes ∧ H.nd = G.nd ∧ H.succ = G.succ ∧
    (∀ u v, (H.ed u v).time = (G.ed u v).time) ∧
    (∀ u v, ¬ (u = .source ∧ v ∈ pre) → H.ed u v = G.ed u v) ∧
    (∀ v ∈ pre, ∃ cs cs', (G.ed .source v).cost = some (.list cs) ∧
      (H.ed .source v).cost = some (.list cs') ∧ cs'.length = cs.length ∧
      ∀ k, cs'.getD k 0 = cs.getD k 0 + if k < K then fc.getD k 0 else 0)) (G.succ .source) G G'
    ⟨rfl, rfl, rfl, fun _ _ => rfl, fun _ _ _ => rfl, by simp⟩ ?_ h
  · exact this
  · rintro pre v H H' hpre ⟨i1, i2, i3, i4, i5, i6⟩ hstep
    have hv : v ∉ pre := by
      have hn : (pre ++ [v]).Nodup := hnd.sublist hpre.sublist
      rw [List.nodup_append] at hn
      intro hm
      exact hn.2.2 v hm v (by simp) rfl
    cases hc : addFixedCost fc K (H.ed .source v).cost with
    | error e => simp [hc] at hstep
    | ok c =>
      simp only [hc, Except.ok.injEq] at hstep
      subst hstep
      refine ⟨i1, i2, i3, ?_, ?_, ?_⟩
      · intro x y
        simp only [DiGraph.setEdge]
        by_cases hxy : x = .source ∧ y = v
        · rw [if_pos hxy, hxy.1, hxy.2]; exact i4 _ _
        · rw [if_neg hxy]; exact i4 _ _
      · intro x y hxy
        simp only [DiGraph.setEdge]
        rw [if_neg, i5 x y]
        · rintro ⟨rfl, hy⟩; exact hxy ⟨rfl, by simp [hy]⟩
        · rintro ⟨rfl, rfl⟩; exact hxy ⟨rfl, by simp⟩
      · intro y hy
        simp only [DiGraph.setEdge]
        by_cases hyv : y = v
        · subst hyv
          obtain ⟨cs, cs', h1, h2, h3, h4⟩ := addFixedCost_ok hc
          rw [i5 .source y (by simp [hv])] at h1
          exact ⟨cs, cs', h1, by simp [h2], h3, h4⟩
        · have hy' : y ∈ pre := by simpa [hyv] using hy
          obtain ⟨cs, cs', h1, h2, h3, h4⟩ := i6 y hy'
          exact ⟨cs, cs', h1, by simp [hyv, h2], h3, h4⟩

/-- The parts of a network `_lock` and `_prune_graph` leave alone. -/
structure SameData (N N' : Net) : Prop where
  demand : N'.demand = N.demand
  collect : N'.collect = N.collect
  service : N'.service = N.service
  freq : N'.freq = N.freq
  request : N'.request = N.request
  time : N'.time = N.time
  nodes : ∀ v, v ∈ N'.nodes → v ∈ N.nodes
  succ : ∀ u v, v ∈ N'.succ u → v ∈ N.succ u
  costLength : ∀ u v, (N'.cost u v).length = (N.cost u v).length

theorem SameData.refl (N : Net) : SameData N N :=
  ⟨rfl, rfl, rfl, rfl, rfl, rfl, fun _ h => h, fun _ _ h => h, fun _ _ => rfl⟩

theorem SameData.trans {A B C : Net} (h1 : SameData A B) (h2 : SameData B C) : SameData A C :=
  ⟨h2.demand.trans h1.demand, h2.collect.trans h1.collect, h2.service.trans h1.service, h2.freq.trans h1.freq,
    h2.request.trans h1.request, h2.time.trans h1.time, fun v h => h1.nodes v (h2.nodes v h),
    fun u v h => h1.succ u v (h2.succ u v h), fun u v => (h2.costLength u v).trans (h1.costLength u v)⟩

theorem zeroCost_same {K : Nat} {N N' : Net} {e : Node × Node} (h : zeroCost K N e = .ok N') : SameData N N' := by
  unfold zeroCost at h
  split at h
  · split at h
    · cases h
    · rename_i _ hlen
      cases h
      refine ⟨rfl, rfl, rfl, rfl, rfl, rfl, fun _ h => h, fun _ _ h => h, ?_⟩
      intro u v
      simp only
      split
      · rename_i huv
        rw [huv.1, huv.2]
        simp; omega
      · rfl
  · cases h

theorem removeNodes_same (N : Net) (vs : List Node) : SameData N (N.removeNodes vs) := by
  refine ⟨rfl, rfl, rfl, rfl, rfl, rfl, ?_, ?_, fun _ _ => rfl⟩
  · intro v h
    exact (List.mem_filter.1 h).1
  · intro u v h
    simp only [Net.removeNodes] at h
    split at h
    · simp at h
    · exact (List.mem_filter.1 h).1

theorem lockRoute_same {K : Nat} {N N' : Net} {r : List Node} (h : lockRoute K N r = .ok N') : SameData N N' := by
  unfold lockRoute at h
  split at h
  · cases h
  · split at h
    · cases h
      exact removeNodes_same N _
    · exact foldlM_inv (P := fun M => SameData N M) _ _ _ (SameData.refl N)
        (fun c a c' _ hc hs => hc.trans (zeroCost_same hs)) h

theorem lock_same {K : Nat} {N N' : Net} {rs : List (List Node)} (h : lock K rs N = .ok N') : SameData N N' :=
  foldlM_inv (P := fun M => SameData N M) _ _ _ (SameData.refl N)
    (fun c a c' _ hc hs => hc.trans (lockRoute_same hs)) h

theorem lockStep_same {K : Nat} {N N' : Net} {rs : List (List Node)} (h : lockStep K rs N = .ok N') : SameData N N' := by
  unfold lockStep at h
  split at h
  · split at h
    · cases h
    · exact lock_same h
  · cases h; exact SameData.refl N

theorem removeEdges_same (N : Net) (es : List (Node × Node)) : SameData N (N.removeEdges es) :=
  ⟨rfl, rfl, rfl, rfl, rfl, rfl, fun _ h => h, fun _ _ h => (List.mem_filter.1 h).1, fun _ _ => rfl⟩

/-- Pruning changes only the windows and removes arcs. -/
structure PruneData (N N' : Net) : Prop where
  same : SameData N N'
  nodes_eq : N'.nodes = N.nodes
  cost_eq : N'.cost = N.cost
  sublist : ∀ u, (N'.succ u).Sublist (N.succ u)

theorem PruneData.refl (N : Net) : PruneData N N := ⟨SameData.refl N, rfl, rfl, fun _ => List.Sublist.refl _⟩

theorem PruneData.trans {A B C : Net} (h1 : PruneData A B) (h2 : PruneData B C) : PruneData A C :=
  ⟨h1.same.trans h2.same, h2.nodes_eq.trans h1.nodes_eq, h2.cost_eq.trans h1.cost_eq,
    fun u => (h2.sublist u).trans (h1.sublist u)⟩

theorem strengthenWindows_same {N N' : Net} (h : strengthenWindows N = .ok N') : PruneData N N' := by
  unfold strengthenWindows at h
  refine foldlM_inv (P := fun M => PruneData N M) _ _ _ (PruneData.refl N) ?_ h
  intro c v c' _ hc hs
  split at hs
  · cases hs; exact hc
  · split at hs
    · cases hs
    · split at hs
      · cases hs
      · cases hs
        exact ⟨⟨hc.same.1, hc.same.2, hc.same.3, hc.same.4, hc.same.5, hc.same.6, hc.same.7, hc.same.8, hc.same.9⟩,
          hc.nodes_eq, hc.cost_eq, hc.sublist⟩

theorem pruneGraph_same {N N' : Net} {caps : List ℚ} {tw : Bool} (h : pruneGraph N caps tw = .ok N') :
    PruneData N N' := by
  have h1 : ∀ M : Net, ∀ es, PruneData M (M.removeEdges es) := fun M es => ⟨removeEdges_same M es, rfl, rfl, fun _ => List.filter_sublist⟩
  have h2 : ∀ M, removeInfeasibleArcsTimeWindows M = .ok N' → PruneData M N' := by
    intro M h
    unfold removeInfeasibleArcsTimeWindows at h
    split at h
    · cases h
    · rename_i G' bad hf
      cases h
      refine PruneData.trans ?_ (h1 G' bad)
      exact foldlM_inv (P := fun st : Net × List (Node × Node) => PruneData M st.1) _ _ _ (PruneData.refl _)
        (by
          intro st e st' _ hst hs
          unfold twStep at hs
          simp only at hs
          split at hs
          · cases hs
          · split at hs
            · cases hs
            · rename_i G2 hG2
              cases hs
              exact hst.trans (strengthenWindows_same hG2)) hf
  unfold pruneGraph at h
  cases caps with
  | nil =>
    simp only at h
    split at h
    · exact h2 _ h
    · cases h; exact PruneData.refl N
  | cons c cs =>
    simp only at h
    split at h
    · exact (h1 N _).trans (h2 _ h)
    · cases h; exact h1 N _

theorem pruneStep_same {N N' : Net} {lc : Arg PyVal} {tw : Bool} (h : pruneStep lc tw N = .ok N') : PruneData N N' := by
  unfold pruneStep at h
  split at h
  · cases h
  · exact pruneGraph_same h

theorem emptyRouteStep_same {N N' : Net} {b : Bool} (h : emptyRouteStep b N = .ok N') :
    SameData N N' ∧ N'.nodes = N.nodes ∧ N'.succ = N.succ ∧ N'.lower = N.lower ∧ N'.upper = N.upper ∧
    ∀ u v, ¬ (u = .source ∧ v = .sink) → N'.cost u v = N.cost u v := by
  unfold emptyRouteStep at h
  split at h
  · unfold emptyRouteCost at h
    split at h
    · cases h
      refine ⟨⟨rfl, rfl, rfl, rfl, rfl, rfl, fun _ h => h, fun _ _ h => h, ?_⟩, rfl, rfl, rfl, rfl, ?_⟩
      · intro u v
        simp only
        split
        · rename_i huv
          rw [huv.1, huv.2]; simp
        · rfl
      · intro u v huv
        simp [huv]
    · cases h
  · cases h
    exact ⟨SameData.refl N, rfl, rfl, rfl, rfl, fun _ _ _ => rfl⟩

end Vrpy
