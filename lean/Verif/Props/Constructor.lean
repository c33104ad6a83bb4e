import Verif.Proofs.Checks

/-!
# C01, C02: the constructor (`check_vrp`)
-/

namespace Vrpy

/-- What the documentation requires of an input graph (`docs/getting_started.rst`), written without `check_vrp`:
both depots, nothing into Source, nothing out of Sink, Source and Sink can be joined, all given edges have costs. -/
structure AcceptableInput (G : DiGraph) : Prop where
  source_mem : Node.source ∈ G.nodes
  sink_mem : Node.sink ∈ G.nodes
  no_into_source : ∀ u, Node.source ∉ G.succ u
  no_out_of_sink : ∀ v, v ∉ G.succ .sink
  joined : (∃ n, Node.cust n ∈ G.nodes) ∨ Node.sink ∈ G.succ .source
  costs : ∀ u v, v ∈ G.succ u → (G.ed u v).cost ≠ none

private theorem sourceReach {G : DiGraph} (hG : G.WF) (hp : ∀ u, Node.source ∉ G.succ u)
    (hsrc : Node.source ∈ G.nodes) (hsnk : Node.sink ∈ G.nodes) :
    (G.nodes.foldl completeNode G).hasPath .source .sink = true ↔
      (∃ n, Node.cust n ∈ G.nodes) ∨ Node.sink ∈ G.succ .source := by
  have inv := complete_inv G hG hsrc hsnk
  rw [DiGraph.hasPath_iff _ inv.wf]
  constructor
  · intro h
    rcases Relation.ReflTransGen.cases_head h with h | ⟨x, hx, _⟩
    · cases h
    · cases x with
      | source =>
        rcases (inv.succ_iff _ _).1 hx with h | ⟨_, h⟩
        · exact absurd h (hp _)
        · simp [Node.isDepot] at h
      | sink =>
        rcases (inv.succ_iff _ _).1 hx with h | ⟨_, h⟩
        · exact Or.inr h
        · simp [Node.isDepot] at h
      | cust n =>
        exact Or.inl ⟨n, inv.nodes ▸ (inv.wf.succ_mem _ _ hx).2⟩
  · rintro (⟨n, hn⟩ | h)
    · have e1 : Node.cust n ∈ (G.nodes.foldl completeNode G).succ .source := by
        rw [inv.succ_iff]
        by_cases h : Node.cust n ∈ G.succ .source
        · exact Or.inl h
        · exact Or.inr ⟨h, Or.inl ⟨rfl, hn, rfl⟩⟩
      have e2 : Node.sink ∈ (G.nodes.foldl completeNode G).succ (.cust n) := by
        rw [inv.succ_iff]
        by_cases h : Node.sink ∈ G.succ (.cust n)
        · exact Or.inl h
        · exact Or.inr ⟨h, Or.inr ⟨rfl, hn, rfl⟩⟩
      exact (Relation.ReflTransGen.single e1).tail e2
    · exact Relation.ReflTransGen.single ((inv.succ_iff _ _).2 (Or.inl h))

private theorem preds_nil {G : DiGraph} (hG : G.WF) : G.preds .source = [] ↔ ∀ u, Node.source ∉ G.succ u := by
  constructor
  · intro h u hu
    have := (G.mem_preds hG u .source).2 hu
    rw [h] at this
    cases this
  · intro h
    rw [List.eq_nil_iff_forall_not_mem]
    intro u hu
    exact h u ((G.mem_preds hG u .source).1 hu)

private theorem anyMissing {G : DiGraph} (hG : G.WF) (hsrc : Node.source ∈ G.nodes) (hsnk : Node.sink ∈ G.nodes) :
    ((G.nodes.foldl completeNode G).edges.any
      (fun e => ((G.nodes.foldl completeNode G).ed e.1 e.2).cost.isNone) = true) ↔
      ∃ u v, v ∈ G.succ u ∧ (G.ed u v).cost = none := by
  have inv := complete_inv G hG hsrc hsnk
  rw [List.any_eq_true]
  constructor
  · rintro ⟨⟨u, v⟩, he, hn⟩
    rw [DiGraph.mem_edges _ inv.wf] at he
    rcases (inv.succ_iff u v).1 he with h | h
    · refine ⟨u, v, h, ?_⟩
      rw [← inv.ed_old u v (fun hh => hh.1 h)]
      simpa using hn
    · simp only [inv.ed_new u v h] at hn
      cases hn
  · rintro ⟨u, v, h, hn⟩
    refine ⟨(u, v), (DiGraph.mem_edges _ inv.wf u v).2 ((inv.succ_iff u v).2 (Or.inl h)), ?_⟩
    simp [inv.ed_old u v (fun hh => hh.1 h), hn]

private theorem checkVrp_unfold (G : DiGraph) (h : checkDepot G .source = .ok ()) :
    checkVrp G = if !(G.nodes.foldl completeNode G).hasPath .source .sink then .error .networkXError
      else if (G.nodes.foldl completeNode G).edges.any
        (fun e => ((G.nodes.foldl completeNode G).ed e.1 e.2).cost.isNone) then .error .keyError
      else .ok (G.nodes.foldl completeNode G) := by
  simp only [checkVrp, h, checkDepot_sink_of_source G h, bind, Except.bind]
  split
  · rfl
  · split <;> rfl

/-- **C01.** If the constructor returns, the network is complete (both depots, no edge into Source or out of Sink,
both depot edges for every customer, a cost on every edge), nodes, node data and all user edges (with their order and
data) are as given, and every other edge is a missing depot edge of cost `1e10` without other data. -/
theorem C01_constructor_completes (G G' : DiGraph) (hG : G.WF) (h : checkVrp G = .ok G') :
    G'.WF ∧ Node.source ∈ G'.nodes ∧ Node.sink ∈ G'.nodes ∧
    (∀ u, Node.source ∉ G'.succ u) ∧ (∀ v, v ∉ G'.succ .sink) ∧
    (∀ n, Node.cust n ∈ G'.nodes → Node.cust n ∈ G'.succ .source ∧ Node.sink ∈ G'.succ (.cust n)) ∧
    (∀ u v, v ∈ G'.succ u → (G'.ed u v).cost ≠ none) ∧
    G'.nodes = G.nodes ∧ G'.nd = G.nd ∧
    (∀ u, G.succ u <+: G'.succ u) ∧
    (∀ u v, v ∈ G.succ u → G'.ed u v = G.ed u v) ∧
    (∀ u v, v ∈ G'.succ u → v ∉ G.succ u →
      ((u = .source ∧ ∃ n, v = .cust n) ∨ (v = .sink ∧ ∃ n, u = .cust n)) ∧
      (G'.ed u v).cost = some (.scalar 10000000000) ∧ (G'.ed u v).time = none) := by
  have hs : checkDepot G .source = .ok () := by
    cases hs : checkDepot G .source with
    | ok u => rfl
    | error e => simp [checkVrp, hs, bind, Except.bind] at h
  rw [checkVrp_unfold G hs] at h
  obtain ⟨h1, h2, h3, h4⟩ := (checkDepot_source G).1.1 hs
  rw [preds_nil hG] at h2
  split at h
  · cases h
  split at h
  · cases h
  rename_i hmiss
  rw [anyMissing hG h1 h3] at hmiss
  push Not at hmiss
  have hG' : G' = G.nodes.foldl completeNode G := by cases h; rfl
  have inv := complete_inv G hG h1 h3
  rw [← hG'] at inv
  have hadd : ∀ u v, AddedUpTo G G.nodes u v →
      (u = .source ∧ ∃ n, v = .cust n) ∨ (v = .sink ∧ ∃ n, u = .cust n) := by
    rintro u v ⟨_, ⟨a, _, c⟩ | ⟨a, _, c⟩⟩
    · left; refine ⟨a, ?_⟩; cases v <;> simp_all [Node.isDepot]
    · right; refine ⟨a, ?_⟩; cases u <;> simp_all [Node.isDepot]
  refine ⟨inv.wf, inv.nodes ▸ h1, inv.nodes ▸ h3, ?_, ?_, ?_, ?_, inv.nodes, inv.nd, inv.succ_prefix, ?_, ?_⟩
  · intro u hu
    rcases (inv.succ_iff _ _).1 hu with h | h
    · exact h2 u h
    · rcases hadd _ _ h with ⟨_, n, h⟩ | ⟨h, _⟩ <;> cases h
  · intro v hv
    rcases (inv.succ_iff _ _).1 hv with h | h
    · rw [h4] at h; cases h
    · rcases hadd _ _ h with ⟨h, _⟩ | ⟨_, n, h⟩ <;> cases h
  · intro n hn
    rw [inv.nodes] at hn
    rw [inv.succ_iff, inv.succ_iff]
    constructor
    · by_cases h : Node.cust n ∈ G.succ .source
      · exact Or.inl h
      · exact Or.inr ⟨h, Or.inl ⟨rfl, hn, rfl⟩⟩
    · by_cases h : Node.sink ∈ G.succ (.cust n)
      · exact Or.inl h
      · exact Or.inr ⟨h, Or.inr ⟨rfl, hn, rfl⟩⟩
  · intro u v hv
    rcases (inv.succ_iff _ _).1 hv with h | h
    · rw [inv.ed_old u v (fun hh => hh.1 h)]
      exact hmiss u v h
    · simp [inv.ed_new u v h]
  · intro u v hv
    exact inv.ed_old u v (fun hh => hh.1 hv)
  · intro u v hv hn
    have h := ((inv.succ_iff _ _).1 hv).resolve_left hn
    exact ⟨hadd u v h, by simp [inv.ed_new u v h, bigCost], by simp [inv.ed_new u v h]⟩

/-- **C02.** The constructor accepts exactly the acceptable inputs; it raises `KeyError` exactly if Source is missing
or the graph is otherwise fine but an edge has no cost; it raises `NetworkXError` in exactly the remaining cases; it
raises nothing else. -/
theorem C02_constructor_rejects_exactly (G : DiGraph) (hG : G.WF) :
    ((∃ G', checkVrp G = .ok G') ↔ AcceptableInput G) ∧
    (checkVrp G = .error .keyError ↔ Node.source ∉ G.nodes ∨
      (Node.source ∈ G.nodes ∧ Node.sink ∈ G.nodes ∧ (∀ u, Node.source ∉ G.succ u) ∧ (∀ v, v ∉ G.succ .sink) ∧
        ((∃ n, Node.cust n ∈ G.nodes) ∨ Node.sink ∈ G.succ .source) ∧
        ∃ u v, v ∈ G.succ u ∧ (G.ed u v).cost = none)) ∧
    (checkVrp G = .error .networkXError ↔ Node.source ∈ G.nodes ∧
      (Node.sink ∉ G.nodes ∨ (∃ u, Node.source ∈ G.succ u) ∨ (∃ v, v ∈ G.succ .sink) ∨
        ((∀ n, Node.cust n ∉ G.nodes) ∧ Node.sink ∉ G.succ .source))) ∧
    (∀ e, checkVrp G = .error e → e = .keyError ∨ e = .networkXError) := by
  by_cases hs : checkDepot G .source = .ok ()
  · rw [checkVrp_unfold G hs]
    obtain ⟨h1, h2, h3, h4⟩ := (checkDepot_source G).1.1 hs
    rw [preds_nil hG] at h2
    have h4' : ∀ v, v ∉ G.succ .sink := by intro v; rw [h4]; simp
    have hj := sourceReach hG h2 h1 h3
    have hm := anyMissing hG h1 h3
    by_cases hp : (G.nodes.foldl completeNode G).hasPath .source .sink = true
    · have hj' := hj.1 hp
      have hj'' : ¬ ((∀ n, Node.cust n ∉ G.nodes) ∧ Node.sink ∉ G.succ .source) := by
        rintro ⟨a, b⟩
        rcases hj' with ⟨n, hn⟩ | hn
        · exact a n hn
        · exact b hn
      simp only [hp, Bool.not_true, Bool.false_eq_true, if_false]
      by_cases ha : (G.nodes.foldl completeNode G).edges.any
        (fun e => ((G.nodes.foldl completeNode G).ed e.1 e.2).cost.isNone) = true
      · have hm' := hm.1 ha
        rw [if_pos ha]
        refine ⟨?_, ?_, ?_, ?_⟩
        · constructor
          · rintro ⟨_, h⟩; cases h
          · intro h
            obtain ⟨u, v, a, b⟩ := hm'
            exact absurd b (h.costs u v a)
        · exact ⟨fun _ => Or.inr ⟨h1, h3, h2, h4', hj', hm'⟩, fun _ => rfl⟩
        · simp only [Except.error.injEq, reduceCtorEq, false_iff]
          rintro ⟨_, h | ⟨u, h⟩ | ⟨v, h⟩ | h⟩
          · exact h h3
          · exact h2 u h
          · exact h4' v h
          · exact hj'' h
        · rintro e h
          cases h
          exact Or.inl rfl
      · have hm' : ¬ _ := fun hh => ha (hm.2 hh)
        rw [if_neg ha]
        refine ⟨?_, ?_, ?_, ?_⟩
        · refine ⟨fun _ => ⟨h1, h3, h2, h4', hj', ?_⟩, fun _ => ⟨_, rfl⟩⟩
          intro u v a b
          exact hm' ⟨u, v, a, b⟩
        · simp only [reduceCtorEq, false_iff]
          rintro (h | ⟨_, _, _, _, _, h⟩)
          · exact h h1
          · exact hm' h
        · simp only [reduceCtorEq, false_iff]
          rintro ⟨_, h | ⟨u, h⟩ | ⟨v, h⟩ | h⟩
          · exact h h3
          · exact h2 u h
          · exact h4' v h
          · exact hj'' h
        · rintro e h
          cases h
    · have hj' : ¬ _ := fun hh => hp (hj.2 hh)
      simp only [Bool.not_eq_true] at hp
      simp only [hp, Bool.not_false, if_true]
      refine ⟨?_, ?_, ?_, ?_⟩
      · constructor
        · rintro ⟨_, h⟩; cases h
        · intro h; exact absurd h.joined hj'
      · simp only [Except.error.injEq, reduceCtorEq, false_iff]
        rintro (h | ⟨_, _, _, _, h, _⟩)
        · exact h h1
        · exact hj' h
      · push Not at hj'
        exact ⟨fun _ => ⟨h1, Or.inr (Or.inr (Or.inr hj'))⟩, fun _ => by trivial⟩
      · rintro e h
        cases h
        exact Or.inr rfl
  · have key := checkDepot_source G
    cases hd : checkDepot G .source with
    | ok u => exact absurd hd hs
    | error e =>
      have hv : checkVrp G = .error e := by simp [checkVrp, hd, bind, Except.bind]
      rw [hv]
      rcases key.2.2.2 e hd with rfl | rfl
      · have hn := key.2.1.1 hd
        refine ⟨?_, ?_, ?_, ?_⟩
        · constructor
          · rintro ⟨_, h⟩; cases h
          · intro h; exact absurd h.source_mem hn
        · exact ⟨fun _ => Or.inl hn, fun _ => rfl⟩
        · simp only [Except.error.injEq, reduceCtorEq, false_iff]
          rintro ⟨h, _⟩
          exact hn h
        · rintro e h
          cases h
          exact Or.inl rfl
      · obtain ⟨hn, hr⟩ := key.2.2.1.1 hd
        have hr' : Node.sink ∉ G.nodes ∨ (∃ u, Node.source ∈ G.succ u) ∨ (∃ v, v ∈ G.succ .sink) := by
          rcases hr with h | h | h
          · rw [Ne, preds_nil hG] at h
            push Not at h
            exact Or.inr (Or.inl h)
          · exact Or.inl h
          · exact Or.inr (Or.inr (List.exists_mem_of_ne_nil _ h))
        refine ⟨?_, ?_, ?_, ?_⟩
        · constructor
          · rintro ⟨_, h⟩; cases h
          · intro h
            rcases hr' with a | ⟨u, a⟩ | ⟨v, a⟩
            · exact absurd h.sink_mem a
            · exact absurd a (h.no_into_source u)
            · exact absurd a (h.no_out_of_sink v)
        · simp only [Except.error.injEq, reduceCtorEq, false_iff]
          rintro (h | ⟨_, a1, a2, a3, _, _⟩)
          · exact h hn
          · rcases hr' with a | ⟨u, a⟩ | ⟨v, a⟩
            · exact a a1
            · exact a2 u a
            · exact a3 v a
        · refine ⟨fun _ => ⟨hn, ?_⟩, fun _ => rfl⟩
          rcases hr' with a | a | a
          · exact Or.inl a
          · exact Or.inr (Or.inl a)
          · exact Or.inr (Or.inr (Or.inl a))
        · rintro e h
          cases h
          exact Or.inr rfl

/-! A concrete case: two customers, one depot edge missing. -/

/-- Source→1→2→Sink, Source→2; the edge 1→Sink is missing. -/
def exC01 : DiGraph where
  nodes := [.source, .cust 1, .cust 2, .sink]
  nd := fun _ => {}
  succ := fun u => match u with
    | .source => [.cust 1, .cust 2]
    | .cust 1 => [.cust 2]
    | .cust 2 => [.sink]
    | _ => []
  ed := fun _ _ => { cost := some (.scalar 1) }

theorem exC01_wf : exC01.WF := by
  refine ⟨by decide, ?_, ?_⟩
  · intro u
    simp only [exC01]
    split <;> decide
  · intro u v h
    simp only [exC01] at h ⊢
    split at h <;> simp_all
    rcases h with h | h <;> simp [h]

/-- The hypotheses of C01 are met: the constructor accepts `exC01` and adds the edge 1→Sink. -/
example : ∃ G', checkVrp exC01 = .ok G' ∧ G'.succ (.cust 1) = [.cust 2, .sink] := by
  obtain ⟨G', h⟩ := (C02_constructor_rejects_exactly exC01 exC01_wf).1.2
    ⟨by decide, by decide, by intro u; simp only [exC01]; split <;> decide, by intro v; simp [exC01],
      Or.inl ⟨1, by decide⟩, by intro u v _; simp [exC01]⟩
  refine ⟨G', h, ?_⟩
  have hs : checkDepot exC01 .source = .ok () := by decide
  rw [checkVrp_unfold exC01 hs] at h
  split at h
  · cases h
  split at h
  · cases h
  cases h
  decide

end Vrpy
