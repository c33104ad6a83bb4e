import Verif.Model.Checks
import Verif.Proofs.Py
import Mathlib.Logic.Relation
import Mathlib.Logic.Function.Iterate
import Mathlib.Data.List.Nodup

/-! Helper lemmas about `check_vrp`. -/

namespace Vrpy

namespace DiGraph

theorem mem_edges (G : DiGraph) (hG : G.WF) (u v : Node) : (u, v) ∈ G.edges ↔ v ∈ G.succ u := by
  simp only [edges, List.mem_flatMap, List.mem_map, Prod.mk.injEq]
  constructor
  · rintro ⟨a, _, b, hb, rfl, rfl⟩
    exact hb
  · intro h
    exact ⟨u, (hG.succ_mem u v h).1, v, h, rfl, rfl⟩

theorem mem_preds (G : DiGraph) (hG : G.WF) (u v : Node) : u ∈ G.preds v ↔ v ∈ G.succ u := by
  simp only [preds, hasEdge, List.mem_filter, decide_eq_true_eq]
  exact ⟨fun h => h.2, fun h => ⟨(hG.succ_mem u v h).1, h⟩⟩

/-- Reachability. -/
abbrev Reach (G : DiGraph) : Node → Node → Prop := Relation.ReflTransGen (fun u v => v ∈ G.succ u)

theorem mem_expand (G : DiGraph) (hG : G.WF) (S : List Node) (v : Node) :
    v ∈ G.expand S ↔ v ∈ S ∨ ∃ u ∈ S, v ∈ G.succ u := by
  simp only [expand, List.mem_append, List.mem_filter, List.any_eq_true, hasEdge, decide_eq_true_eq]
  constructor
  · rintro (h | ⟨_, _, u, hu, huv⟩)
    · exact Or.inl h
    · exact Or.inr ⟨u, hu, huv⟩
  · rintro (h | ⟨u, hu, huv⟩)
    · exact Or.inl h
    · by_cases hv : v ∈ S
      · exact Or.inl hv
      · exact Or.inr ⟨(hG.succ_mem u v huv).2, hv, u, hu, huv⟩

theorem reach_of_mem_iterate (G : DiGraph) (hG : G.WF) (s : Node) (k : Nat) :
    ∀ v ∈ G.expand^[k] [s], G.Reach s v := by
  induction k with
  | zero => intro v hv; simp at hv; exact hv ▸ .refl
  | succ k ih =>
    intro v hv
    rw [Function.iterate_succ_apply', mem_expand G hG] at hv
    rcases hv with h | ⟨u, hu, huv⟩
    · exact ih v h
    · exact (ih u hu).tail huv

/-- After `k` rounds the search is closed or at least `k` nodes have been found. -/
theorem iterate_closed_or (G : DiGraph) (hG : G.WF) (s : Node) (k : Nat) :
    (∀ u ∈ G.expand^[k] [s], ∀ v ∈ G.succ u, v ∈ G.expand^[k] [s]) ∨
    (G.nodes.filter (fun v => v ∉ G.expand^[k] [s])).length + k ≤ G.nodes.length := by
  induction k with
  | zero => exact Or.inr (by simpa using List.length_filter_le _ _)
  | succ k ih =>
    rw [Function.iterate_succ_apply']
    set S := G.expand^[k] [s] with hS
    have hmem := mem_expand G hG S
    by_cases hc : ∀ u ∈ S, ∀ v ∈ G.succ u, v ∈ S
    · left
      intro u hu v hv
      rw [hmem] at hu ⊢
      rcases hu with hu | ⟨w, hw, hwu⟩
      · exact Or.inl (hc u hu v hv)
      · exact Or.inl (hc u (hc w hw u hwu) v hv)
    · rcases ih with ih | ih
      · exact absurd ih hc
      · right
        push Not at hc
        obtain ⟨u, hu, v, hv, hvS⟩ := hc
        have hlt : (G.nodes.filter (fun v => v ∉ G.expand S)).length < (G.nodes.filter (fun v => v ∉ S)).length := by
          have heq : (G.nodes.filter (fun v => v ∉ G.expand S)) =
              (G.nodes.filter (fun v => v ∉ S)).filter (fun v => v ∉ G.expand S) := by
            rw [List.filter_filter]
            apply List.filter_congr
            intro w _
            by_cases h1 : w ∈ G.expand S
            · simp [h1]
            · have h2 : w ∉ S := fun h => h1 ((hmem w).2 (Or.inl h))
              simp [h1, h2]
          rw [heq]
          apply List.length_filter_lt_length_iff_exists.2
          exact ⟨v, by simp [hvS, (hG.succ_mem u v hv).2], by simpa using (hmem v).2 (Or.inr ⟨u, hu, hv⟩)⟩
        omega

/-- `networkx.has_path` says whether a path exists. -/
theorem hasPath_iff (G : DiGraph) (hG : G.WF) (s t : Node) : G.hasPath s t = true ↔ G.Reach s t := by
  unfold hasPath
  rw [decide_eq_true_eq]
  constructor
  · exact reach_of_mem_iterate G hG s _ t
  · have hs : ∀ k, s ∈ G.expand^[k] [s] := by
      intro k
      induction k with
      | zero => simp
      | succ k ih => rw [Function.iterate_succ_apply', mem_expand G hG]; exact Or.inl ih
    have hclosed : ∀ u ∈ G.expand^[G.nodes.length] [s], ∀ v ∈ G.succ u, v ∈ G.expand^[G.nodes.length] [s] := by
      rcases iterate_closed_or G hG s G.nodes.length with h | h
      · exact h
      · have h0 : (G.nodes.filter (fun v => v ∉ G.expand^[G.nodes.length] [s])) = [] := by
          apply List.eq_nil_of_length_eq_zero
          omega
        intro u _ v hv
        have := (hG.succ_mem u v hv).2
        by_contra hn
        have : v ∈ (G.nodes.filter (fun v => v ∉ G.expand^[G.nodes.length] [s])) := by simp [this, hn]
        rw [h0] at this
        cases this
    intro h
    induction h with
    | refl => exact hs _
    | tail _ h2 ih => exact hclosed _ ih _ h2

theorem addEdge_wf (G : DiGraph) (hG : G.WF) (u v : Node) (d : EdgeData) (hu : u ∈ G.nodes) (hv : v ∈ G.nodes)
    (hn : v ∉ G.succ u) : (G.addEdge u v d).WF := by
  refine ⟨hG.nodes_nodup, ?_, ?_⟩
  · intro x
    simp only [addEdge]
    split_ifs with h
    · rw [List.nodup_append]
      refine ⟨hG.succ_nodup u, by simp, ?_⟩
      intro a ha b hb
      simp only [List.mem_singleton] at hb
      rintro rfl
      exact hn (hb ▸ ha)
    · exact hG.succ_nodup x
  · intro x y hy
    simp only [addEdge] at hy ⊢
    split_ifs at hy with h
    · simp only [List.mem_append, List.mem_singleton] at hy
      rcases hy with hy | hy
      · exact h ▸ hG.succ_mem u y hy
      · exact ⟨h ▸ hu, hy ▸ hv⟩
    · exact hG.succ_mem x y hy

end DiGraph

/-- The edges `check_vrp` adds when it has processed the nodes `pre`. -/
def AddedUpTo (G : DiGraph) (pre : List Node) (u v : Node) : Prop :=
  v ∉ G.succ u ∧ ((u = .source ∧ v ∈ pre ∧ v.isDepot = false) ∨ (v = .sink ∧ u ∈ pre ∧ u.isDepot = false))

/-- Loop invariant of the edge-adding loop. -/
structure CompleteInv (G : DiGraph) (pre : List Node) (c : DiGraph) : Prop where
  wf : c.WF
  nodes : c.nodes = G.nodes
  nd : c.nd = G.nd
  succ_prefix : ∀ u, G.succ u <+: c.succ u
  succ_iff : ∀ u v, v ∈ c.succ u ↔ v ∈ G.succ u ∨ AddedUpTo G pre u v
  ed_old : ∀ u v, ¬ AddedUpTo G pre u v → c.ed u v = G.ed u v
  ed_new : ∀ u v, AddedUpTo G pre u v → c.ed u v = { cost := some (.scalar bigCost) }

theorem completeNode_step (G : DiGraph) (hsrc : Node.source ∈ G.nodes) (hsnk : Node.sink ∈ G.nodes)
    (pre : List Node) (a : Node) (ha : a ∈ G.nodes) (c : DiGraph) (h : CompleteInv G pre c) :
    CompleteInv G (pre ++ [a]) (completeNode c a) := by
  have hmono : ∀ u v, AddedUpTo G pre u v → AddedUpTo G (pre ++ [a]) u v := by
    rintro u v ⟨h1, h2⟩
    refine ⟨h1, ?_⟩
    rcases h2 with ⟨a1, a2, a3⟩ | ⟨a1, a2, a3⟩
    · exact Or.inl ⟨a1, by simp [a2], a3⟩
    · exact Or.inr ⟨a1, by simp [a2], a3⟩
  unfold completeNode
  by_cases hd : a.isDepot
  · simp only [hd, if_true]
    have hiff : ∀ u v, AddedUpTo G (pre ++ [a]) u v ↔ AddedUpTo G pre u v := by
      intro u v
      refine ⟨?_, hmono u v⟩
      rintro ⟨h1, h2⟩
      refine ⟨h1, ?_⟩
      rcases h2 with ⟨a1, a2, a3⟩ | ⟨a1, a2, a3⟩
      · left
        refine ⟨a1, ?_, a3⟩
        rcases List.mem_append.1 a2 with h | h
        · exact h
        · simp only [List.mem_singleton] at h; rw [h, hd] at a3; cases a3
      · right
        refine ⟨a1, ?_, a3⟩
        rcases List.mem_append.1 a2 with h | h
        · exact h
        · simp only [List.mem_singleton] at h; rw [h, hd] at a3; cases a3
    exact ⟨h.wf, h.nodes, h.nd, h.succ_prefix, fun u v => by rw [hiff]; exact h.succ_iff u v,
      fun u v => by rw [hiff]; exact h.ed_old u v, fun u v => by rw [hiff]; exact h.ed_new u v⟩
  · simp only [Bool.not_eq_true] at hd
    simp only [hd, Bool.false_eq_true, if_false]
    have hane : a ≠ .sink := by rintro rfl; simp [Node.isDepot] at hd
    have hans : a ≠ .source := by rintro rfl; simp [Node.isDepot] at hd
    -- first half: the edge from Source
    set d : EdgeData := { cost := some (.scalar bigCost) } with hdd
    set c1 := (if a ∈ c.succ .source then c else c.addEdge .source a d) with hc1
    have hA : ∀ u v, AddedUpTo G (pre ++ [a]) u v ↔
        AddedUpTo G pre u v ∨ (u = .source ∧ v = a ∧ a ∉ G.succ .source) ∨
          (u = a ∧ v = .sink ∧ .sink ∉ G.succ a) := by
      intro u v
      constructor
      · rintro ⟨h1, h2⟩
        rcases h2 with ⟨a1, a2, a3⟩ | ⟨a1, a2, a3⟩
        · rcases List.mem_append.1 a2 with h | h
          · exact Or.inl ⟨h1, Or.inl ⟨a1, h, a3⟩⟩
          · simp only [List.mem_singleton] at h
            subst h a1
            exact Or.inr (Or.inl ⟨rfl, rfl, h1⟩)
        · rcases List.mem_append.1 a2 with h | h
          · exact Or.inl ⟨h1, Or.inr ⟨a1, h, a3⟩⟩
          · simp only [List.mem_singleton] at h
            subst h a1
            exact Or.inr (Or.inr ⟨rfl, rfl, h1⟩)
      · rintro (h | ⟨rfl, rfl, h⟩ | ⟨rfl, rfl, h⟩)
        · exact hmono u v h
        · exact ⟨h, Or.inl ⟨rfl, by simp, hd⟩⟩
        · exact ⟨h, Or.inr ⟨rfl, by simp, hd⟩⟩
    have k1 : c1.WF ∧ c1.nodes = G.nodes ∧ c1.nd = G.nd ∧ (∀ u, G.succ u <+: c1.succ u) ∧
        (∀ u v, v ∈ c1.succ u ↔ v ∈ G.succ u ∨ AddedUpTo G pre u v ∨ (u = .source ∧ v = a ∧ a ∉ G.succ .source)) ∧
        (∀ u v, ¬ (AddedUpTo G pre u v ∨ (u = .source ∧ v = a ∧ a ∉ G.succ .source)) → c1.ed u v = G.ed u v) ∧
        (∀ u v, (AddedUpTo G pre u v ∨ (u = .source ∧ v = a ∧ a ∉ G.succ .source)) → c1.ed u v = d) := by
      by_cases hin : a ∈ c.succ .source
      · have hc1' : c1 = c := by rw [hc1, if_pos hin]
        rw [hc1']
        have hsub : ∀ u v, (u = .source ∧ v = a ∧ a ∉ G.succ .source) → AddedUpTo G pre u v := by
          rintro u v ⟨rfl, rfl, hn⟩
          exact ((h.succ_iff _ _).1 hin).resolve_left hn
        refine ⟨h.wf, h.nodes, h.nd, h.succ_prefix, ?_, ?_, ?_⟩
        · intro u v
          rw [h.succ_iff]
          constructor
          · rintro (h | h) <;> simp [h]
          · rintro (h | h | h)
            · exact Or.inl h
            · exact Or.inr h
            · exact Or.inr (hsub u v h)
        · intro u v hn
          exact h.ed_old u v (fun hh => hn (Or.inl hh))
        · rintro u v (hh | hh)
          · exact h.ed_new u v hh
          · exact h.ed_new u v (hsub u v hh)
      · have hc1' : c1 = c.addEdge .source a d := by rw [hc1, if_neg hin]
        rw [hc1']
        have hG0 : a ∉ G.succ .source := fun hh => hin ((h.succ_iff _ _).2 (Or.inl hh))
        refine ⟨DiGraph.addEdge_wf c h.wf _ _ _ (h.nodes ▸ hsrc) (h.nodes ▸ ha) hin, h.nodes, h.nd, ?_, ?_, ?_, ?_⟩
        · intro u
          simp only [DiGraph.addEdge]
          split_ifs with hu
          · exact hu ▸ (h.succ_prefix _).trans (List.prefix_append _ _)
          · exact h.succ_prefix u
        · intro u v
          simp only [DiGraph.addEdge]
          split_ifs with hu
          · subst hu
            simp only [List.mem_append, List.mem_singleton, h.succ_iff, true_and]
            constructor
            · rintro ((h | h) | h)
              · exact Or.inl h
              · exact Or.inr (Or.inl h)
              · exact Or.inr (Or.inr ⟨h, hG0⟩)
            · rintro (h | h | ⟨h, _⟩)
              · exact Or.inl (Or.inl h)
              · exact Or.inl (Or.inr h)
              · exact Or.inr h
          · rw [h.succ_iff]
            constructor
            · rintro (h | h) <;> simp [h]
            · rintro (h | h | ⟨h, _⟩)
              · exact Or.inl h
              · exact Or.inr h
              · exact absurd h hu
        · intro u v hn
          simp only [DiGraph.addEdge]
          rw [if_neg (fun hh => hn (Or.inr ⟨hh.1, hh.2, hG0⟩))]
          exact h.ed_old u v (fun hh => hn (Or.inl hh))
        · intro u v hh
          simp only [DiGraph.addEdge]
          split_ifs with hu
          · rfl
          · rcases hh with hh | hh
            · exact h.ed_new u v hh
            · exact absurd ⟨hh.1, hh.2.1⟩ hu
    obtain ⟨w1, w2, w3, w4, w5, w6, w7⟩ := k1
    have hpred : a ∈ c1.preds .sink ↔ .sink ∈ c1.succ a := c1.mem_preds w1 a .sink
    by_cases hin : a ∈ c1.preds .sink
    · rw [if_pos hin]
      rw [hpred] at hin
      have hsub : ∀ u v, (u = a ∧ v = .sink ∧ .sink ∉ G.succ a) → AddedUpTo G pre u v := by
        rintro u v ⟨rfl, rfl, hn⟩
        rcases (w5 _ _).1 hin with hh | hh | hh
        · exact absurd hh hn
        · exact hh
        · exact absurd hh.1 hans
      refine ⟨w1, w2, w3, w4, ?_, ?_, ?_⟩
      · intro u v
        rw [w5, hA]
        constructor
        · rintro (h | h | h) <;> simp [h]
        · rintro (h | h | h | h)
          · exact Or.inl h
          · exact Or.inr (Or.inl h)
          · exact Or.inr (Or.inr h)
          · exact Or.inr (Or.inl (hsub u v h))
      · intro u v hn
        rw [hA] at hn
        exact w6 u v (fun hh => hn (by rcases hh with hh | hh <;> simp [hh]))
      · intro u v hh
        rw [hA] at hh
        rcases hh with hh | hh | hh
        · exact w7 u v (Or.inl hh)
        · exact w7 u v (Or.inr hh)
        · exact w7 u v (Or.inl (hsub u v hh))
    · rw [if_neg hin]
      rw [hpred] at hin
      have hG0 : Node.sink ∉ G.succ a := fun hh => hin ((w5 _ _).2 (Or.inl hh))
      refine ⟨DiGraph.addEdge_wf c1 w1 _ _ _ (w2 ▸ ha) (w2 ▸ hsnk) hin, w2, w3, ?_, ?_, ?_, ?_⟩
      · intro u
        simp only [DiGraph.addEdge]
        split_ifs with hu
        · exact hu ▸ (w4 _).trans (List.prefix_append _ _)
        · exact w4 u
      · intro u v
        rw [hA]
        simp only [DiGraph.addEdge]
        split_ifs with hu
        · subst hu
          simp only [List.mem_append, List.mem_singleton, w5, true_and]
          constructor
          · rintro ((h | h | h) | h)
            · exact Or.inl h
            · exact Or.inr (Or.inl h)
            · exact Or.inr (Or.inr (Or.inl h))
            · exact Or.inr (Or.inr (Or.inr ⟨h, hG0⟩))
          · rintro (h | h | h | ⟨h, _⟩)
            · exact Or.inl (Or.inl h)
            · exact Or.inl (Or.inr (Or.inl h))
            · exact Or.inl (Or.inr (Or.inr h))
            · exact Or.inr h
        · rw [w5]
          constructor
          · rintro (h | h | h) <;> simp [h]
          · rintro (h | h | h | ⟨h, _⟩)
            · exact Or.inl h
            · exact Or.inr (Or.inl h)
            · exact Or.inr (Or.inr h)
            · exact absurd h hu
      · intro u v hn
        rw [hA] at hn
        simp only [DiGraph.addEdge]
        rw [if_neg (fun hh => hn (Or.inr (Or.inr ⟨hh.1, hh.2, hG0⟩)))]
        exact w6 u v (fun hh => hn (by rcases hh with hh | hh <;> simp [hh]))
      · intro u v hh
        rw [hA] at hh
        simp only [DiGraph.addEdge]
        split_ifs with hu
        · rfl
        · rcases hh with hh | hh | hh
          · exact w7 u v (Or.inl hh)
          · exact w7 u v (Or.inr hh)
          · exact absurd ⟨hh.1, hh.2.1⟩ hu

theorem complete_inv (G : DiGraph) (hG : G.WF) (hsrc : Node.source ∈ G.nodes) (hsnk : Node.sink ∈ G.nodes) :
    CompleteInv G G.nodes (G.nodes.foldl completeNode G) := by
  apply foldl_prefix (P := CompleteInv G)
  · refine ⟨hG, rfl, rfl, fun u => List.prefix_refl _, ?_, fun _ _ _ => rfl, ?_⟩
    · intro u v
      simp [AddedUpTo]
    · rintro u v ⟨_, h⟩
      simp at h
  · intro pre a c hpre hc
    exact completeNode_step G hsrc hsnk pre a (hpre.subset (by simp)) c hc

theorem checkDepot_source (G : DiGraph) :
    (checkDepot G .source = .ok () ↔ Node.source ∈ G.nodes ∧ G.preds .source = [] ∧ Node.sink ∈ G.nodes ∧
      G.succ .sink = []) ∧
    (checkDepot G .source = .error .keyError ↔ Node.source ∉ G.nodes) ∧
    (checkDepot G .source = .error .networkXError ↔ Node.source ∈ G.nodes ∧
      (G.preds .source ≠ [] ∨ Node.sink ∉ G.nodes ∨ G.succ .sink ≠ [])) ∧
    (∀ e, checkDepot G .source = .error e → e = .keyError ∨ e = .networkXError) := by
  unfold checkDepot
  by_cases h1 : Node.source ∈ G.nodes <;> by_cases h2 : G.preds .source = [] <;>
    by_cases h3 : Node.sink ∈ G.nodes <;> by_cases h4 : G.succ .sink = [] <;>
    simp [h1, h2, h3, h4, List.length_pos_iff]

theorem checkDepot_sink_of_source (G : DiGraph) (h : checkDepot G .source = .ok ()) :
    checkDepot G .sink = .ok () := by
  obtain ⟨h1, h2, h3, h4⟩ := (checkDepot_source G).1.1 h
  simp [checkDepot, h1, h2, h3, h4]

end Vrpy
