import Verif.Proofs.Reports
import Verif.Proofs.CostVectors

/-! Lemmas about `_lock` and `_best_routes_as_node_lists`. -/

namespace Vrpy

open Spec

/-- The list `l` as a dict with keys 1, 2, ... -/
def numbered {α : Type} (l : List α) : Dict Nat α := (l.zipIdx 1).map (fun p => (p.2, p.1))

theorem numbered_snoc {α : Type} (l : List α) (x : α) : numbered (l ++ [x]) = numbered l ++ [(l.length + 1, x)] := by
  simp [numbered, List.zipIdx_append, Nat.add_comm]

theorem numbered_keys {α : Type} (l : List α) : (numbered l).map Prod.fst = List.range' 1 l.length := by
  induction l using List.reverseRecOn with
  | nil => rfl
  | append_singleton l x ih => simp [numbered_snoc, ih, List.range'_append_1, List.range'_1_concat, Nat.add_comm]

theorem numbered_nodup {α : Type} (l : List α) : ((numbered l).map Prod.fst).Nodup := by
  rw [numbered_keys]; exact List.nodup_range'

theorem mem_numbered {α : Type} (l : List α) (i : Nat) (x : α) :
    (i, x) ∈ numbered l ↔ 1 ≤ i ∧ l[i - 1]? = some x := by
  simp only [numbered, List.mem_map, Prod.mk.injEq, Prod.exists]
  constructor
  · rintro ⟨a, b, h, rfl, rfl⟩
    exact List.mk_mem_zipIdx_iff_le_and_getElem?_sub.1 h
  · intro h
    exact ⟨x, i, List.mk_mem_zipIdx_iff_le_and_getElem?_sub.2 h, rfl, rfl⟩

theorem dget_numbered {α : Type} (l : List α) (i : Nat) :
    dget (numbered l) i = if 1 ≤ i then l[i - 1]? else none := by
  cases h : dget (numbered l) i with
  | none =>
    rw [dget_eq_none, numbered_keys] at h
    simp only [List.mem_range'_1, not_and, not_lt] at h
    split
    · rename_i h1
      rw [List.getElem?_eq_none (by have := h h1; omega)]
    · rfl
  | some x =>
    obtain ⟨h1, h2⟩ := (mem_numbered l i x).1 (mem_of_dget h)
    rw [if_pos h1, h2]

theorem dset_numbered {α : Type} (l : List α) (x : α) : dset (numbered l) (l.length + 1) x = numbered (l ++ [x]) := by
  rw [dset_fresh, numbered_snoc]
  rw [numbered_keys, List.mem_range'_1]
  omega

theorem addGraphs (path : Column → List Node) (graphs : List Column) :
    graphs.foldl (addGraph path) ([], [], 1) =
      (numbered (graphs.map path), numbered (graphs.map Column.vehicleType), graphs.length + 1) := by
  induction graphs using List.reverseRecOn with
  | nil => rfl
  | append_singleton gs c ih =>
    rw [List.foldl_append, ih]
    simp only [List.foldl_cons, List.foldl_nil, addGraph, List.map_append, List.map_cons, List.map_nil,
      List.length_append, List.length_cons, List.length_nil, zero_add]
    have h1 := dset_numbered (gs.map path) (path c)
    have h2 := dset_numbered (gs.map Column.vehicleType) c.vehicleType
    rw [List.length_map] at h1 h2
    rw [h1, h2]

/-- The state of `_best_routes_as_node_lists` after merging the locked routes `p`. -/
structure Merged (H : Net) (caps : List ℚ) (K : Nat) (path : Column → List Node) (graphs : List Column)
    (p : List (List Node)) (st : Dict Nat (List Node) × Dict Nat Nat × Nat) : Prop where
  routes : st.1 = numbered (graphs.map path ++ p.filter isComplete)
  next : st.2.2 = graphs.length + (p.filter isComplete).length + 1
  locked_ok : ∀ r ∈ p, isComplete r → ∃ t, lockedType H caps K r = .ok t
  type_old : ∀ i, i ≤ graphs.length → dget st.2.1 i = dget (numbered (graphs.map Column.vehicleType)) i
  type_locked : ∀ j r, (p.filter isComplete)[j]? = some r →
    lockedType H caps K r = .ok (dget st.2.1 (graphs.length + 1 + j))
  type_new : ∀ i, graphs.length + (p.filter isComplete).length < i → dget st.2.1 i = none

theorem merged_all {H : Net} {caps : List ℚ} {K : Nat} {path : Column → List Node} {graphs : List Column}
    {pre : List (List Node)} {st : Dict Nat (List Node) × Dict Nat Nat × Nat}
    (h : pre.foldlM (mergeLocked H caps K) (graphs.foldl (addGraph path) ([], [], 1)) = .ok st) :
    Merged H caps K path graphs pre st := by
  refine foldlM_prefix (P := Merged H caps K path graphs) pre _ st ?_ ?_ h
  · rw [addGraphs]
    refine ⟨by simp, by simp, by simp, fun _ _ => rfl, by simp, ?_⟩
    intro i hi
    simp only [List.filter_nil, List.length_nil, Nat.add_zero] at hi
    simp only
    rw [dget_numbered]
    split
    · exact List.getElem?_eq_none (by simp; omega)
    · rfl
  · intro l1 r c c' _ hinv hstep
    unfold mergeLocked at hstep
    split at hstep
    · cases hstep
    · split at hstep
      · rename_i hne hc
        have hfil : (l1 ++ [r]).filter isComplete = l1.filter isComplete ++ [r] := by simp [List.filter_append, hc]
        have hroutes : dset c.1 c.2.2 r = numbered (graphs.map path ++ (l1 ++ [r]).filter isComplete) := by
          have := dset_numbered (graphs.map path ++ l1.filter isComplete) r
          simp only [List.length_append, List.length_map] at this
          rw [hinv.routes, hinv.next, this, hfil, List.append_assoc]
        cases hlt : lockedType H caps K r with
        | error e => simp [hlt] at hstep
        | ok t =>
          have hokall : ∀ r' ∈ l1 ++ [r], isComplete r' → ∃ t, lockedType H caps K r' = .ok t := by
            intro r' hr' hc'
            rcases List.mem_append.1 hr' with h' | h'
            · exact hinv.locked_ok r' h' hc'
            · simp only [List.mem_singleton] at h'
              subst h'
              exact ⟨t, hlt⟩
          -- the new type dict
          have key : ∀ T : Dict Nat Nat, (∀ i, i ≠ c.2.2 → dget T i = dget c.2.1 i) → dget T c.2.2 = t →
              c' = (dset c.1 c.2.2 r, T, c.2.2 + 1) → Merged H caps K path graphs (l1 ++ [r]) c' := by
            rintro T hT1 hT2 rfl
            refine ⟨hroutes, ?_, hokall, ?_, ?_, ?_⟩
            · rw [hfil]; simp only [hinv.next, List.length_append, List.length_cons, List.length_nil]; omega
            · intro i hi
              rw [← hinv.type_old i hi]
              exact hT1 i (by rw [hinv.next]; omega)
            · intro j r' hj
              rw [hfil, List.getElem?_append] at hj
              split at hj
              · rename_i hlt'
                rw [hinv.type_locked j r' hj, hT1 _ (by rw [hinv.next]; omega)]
              · rename_i hge
                have hj0 : j = (l1.filter isComplete).length := by
                  by_contra hne'
                  rw [List.getElem?_eq_none (by simp; omega)] at hj
                  cases hj
                subst hj0
                simp only [Nat.sub_self, List.getElem?_cons_zero, Option.some.injEq] at hj
                subst hj
                rw [hlt, ← hT2, hinv.next]
                congr 2
                omega
            · intro i hi
              rw [hfil] at hi
              simp only [List.length_append, List.length_cons, List.length_nil] at hi
              rw [hT1 i (by rw [hinv.next]; omega)]
              exact hinv.type_new i (by omega)
          cases t with
          | none =>
            simp only [hlt, Except.ok.injEq] at hstep
            exact key c.2.1 (fun _ _ => rfl) (hinv.type_new _ (by rw [hinv.next]; omega)) hstep.symm
          | some k =>
            simp only [hlt, Except.ok.injEq] at hstep
            exact key (dset c.2.1 c.2.2 k) (fun i hi => dget_dset_ne _ _ hi) (dget_dset_self _ _ _) hstep.symm
      · rename_i hne hc
        cases hstep
        have hfil : (l1 ++ [r]).filter isComplete = l1.filter isComplete := by simp [List.filter_append, hc]
        refine ⟨by rw [hfil]; exact hinv.routes, by rw [hfil]; exact hinv.next, ?_, hinv.type_old,
          by rw [hfil]; exact hinv.type_locked, by rw [hfil]; exact hinv.type_new⟩
        intro r' hr' hc'
        rcases List.mem_append.1 hr' with h' | h'
        · exact hinv.locked_ok r' h' hc'
        · simp only [List.mem_singleton] at h'
          subst h'
          exact absurd hc' hc

/-- What `lockedType` computes: a cheapest vehicle type among those that can carry the route and cost less than
`1e10`. -/
theorem lockedType_ok {H : Net} {caps : List ℚ} {K : Nat} {r : List Node} {t : Option Nat}
    (h : lockedType H caps K r = .ok t) :
    (∀ k, t = some k → k < K ∧ (caps ≠ [] → k < caps.length ∧ load H r ≤ caps.getD k 0) ∧ cost H k r < bigCost) ∧
    ∀ j, j < K → (caps ≠ [] → load H r ≤ caps.getD j 0) → cost H j r < bigCost →
      ∃ k, t = some k ∧ cost H k r ≤ cost H j r := by
  unfold lockedType at h
  cases hf : (List.range K).foldlM (lockedTypeStep H caps r) (bigCost, none) with
  | error e => simp [hf] at h
  | ok st =>
    simp only [hf, Except.ok.injEq] at h
    subst h
    have inv := foldlM_prefix (P := fun (p : List Nat) (st : ℚ × Option Nat) =>
        st.1 ≤ bigCost ∧ (st.2 = none → st.1 = bigCost) ∧
        (∀ k, st.2 = some k → k ∈ p ∧ (caps ≠ [] → k < caps.length ∧ load H r ≤ caps.getD k 0) ∧ st.1 = cost H k r ∧
          cost H k r < bigCost) ∧
        ∀ j ∈ p, (caps ≠ [] → load H r ≤ caps.getD j 0) → st.1 ≤ cost H j r ∨ bigCost ≤ cost H j r)
      (List.range K) (bigCost, none) st (by simp) ?_ hf
    · obtain ⟨_, h2, h3, h4⟩ := inv
      refine ⟨?_, ?_⟩
      · intro k hk
        obtain ⟨a, b, _, d⟩ := h3 k hk
        exact ⟨List.mem_range.1 a, b, d⟩
      · intro j hj hl hc
        rcases h4 j (List.mem_range.2 hj) hl with h5 | h5
        · cases hs : st.2 with
          | none =>
            rw [h2 hs] at h5
            exact absurd h5 (not_le.2 hc)
          | some k =>
            obtain ⟨_, _, c, _⟩ := h3 k hs
            exact ⟨k, rfl, c ▸ h5⟩
        · exact absurd h5 (not_le.2 hc)
    · rintro l1 k c c' _ ⟨i1, i2, i3, i4⟩ hstep
      unfold lockedTypeStep at hstep
      cases hs : sumEdgeCosts H k (consecutive r) with
      | error e => simp [hs] at hstep
      | ok q =>
        have hq := (sumEdgeCosts_route.1 hs).2
        subst hq
        simp only [hs] at hstep
        have keep : (¬ (caps ≠ [] → load H r ≤ caps.getD k 0) ∨ c.1 ≤ cost H k r) → c' = c →
            (c'.1 ≤ bigCost ∧ (c'.2 = none → c'.1 = bigCost) ∧
            (∀ k', c'.2 = some k' → k' ∈ l1 ++ [k] ∧ (caps ≠ [] → k' < caps.length ∧ load H r ≤ caps.getD k' 0) ∧
              c'.1 = cost H k' r ∧ cost H k' r < bigCost) ∧
            ∀ j ∈ l1 ++ [k], (caps ≠ [] → load H r ≤ caps.getD j 0) → c'.1 ≤ cost H j r ∨ bigCost ≤ cost H j r) := by
          rintro hor rfl
          refine ⟨i1, i2, fun k' hk' => ?_, ?_⟩
          · obtain ⟨a, b⟩ := i3 k' hk'
            exact ⟨List.mem_append_left _ a, b⟩
          · intro j hj hl
            rcases List.mem_append.1 hj with hj | hj
            · exact i4 j hj hl
            · simp only [List.mem_singleton] at hj
              subst hj
              rcases hor with hor | hor
              · exact absurd hl hor
              · exact Or.inl hor
        have take : cost H k r < c.1 → (caps ≠ [] → k < caps.length ∧ load H r ≤ caps.getD k 0) →
            c' = (cost H k r, some k) →
            (c'.1 ≤ bigCost ∧ (c'.2 = none → c'.1 = bigCost) ∧
            (∀ k', c'.2 = some k' → k' ∈ l1 ++ [k] ∧ (caps ≠ [] → k' < caps.length ∧ load H r ≤ caps.getD k' 0) ∧
              c'.1 = cost H k' r ∧ cost H k' r < bigCost) ∧
            ∀ j ∈ l1 ++ [k], (caps ≠ [] → load H r ≤ caps.getD j 0) → c'.1 ≤ cost H j r ∨ bigCost ≤ cost H j r) := by
          rintro hlt hcap rfl
          refine ⟨hlt.le.trans i1, by simp, ?_, ?_⟩
          · rintro k' hk'
            simp only [Option.some.injEq] at hk'
            subst hk'
            exact ⟨by simp, hcap, rfl, lt_of_lt_of_le hlt i1⟩
          · intro j hj hl
            rcases List.mem_append.1 hj with hj | hj
            · rcases i4 j hj hl with h5 | h5
              · exact Or.inl (hlt.le.trans h5)
              · exact Or.inr h5
            · simp only [List.mem_singleton] at hj
              subst hj
              exact Or.inl le_rfl
        split at hstep
        · rename_i hlt
          split at hstep
          · rename_i hcaps
            cases hk : caps[k]? with
            | none => simp [hk] at hstep
            | some q =>
              have hklt : k < caps.length := by
                by_contra hge
                rw [List.getElem?_eq_none (by omega)] at hk
                cases hk
              have hgd : caps.getD k 0 = q := by simp [List.getD_eq_getElem?_getD, hk]
              simp only [hk] at hstep
              split at hstep
              · rename_i hle
                cases hstep
                exact take hlt (fun _ => ⟨hklt, by rw [hgd]; exact hle⟩) rfl
              · rename_i hle
                cases hstep
                exact keep (Or.inl (fun hh => hle (by rw [← hgd]; exact hh hcaps))) rfl
          · rename_i hcaps
            cases hstep
            exact take hlt (fun hh => absurd hh hcaps) rfl
        · rename_i hlt
          cases hstep
          exact keep (Or.inr (not_lt.1 hlt)) rfl

/-- The network after locking the routes `p`. -/
structure Locked (K : Nat) (N : Net) (p : List (List Node)) (N' : Net) : Prop where
  nodes : ∀ v, v ∈ N'.nodes ↔ v ∈ N.nodes ∧ ∀ r ∈ p, isComplete r → v ∉ interior r
  arcs : ∀ u v, v ∈ N'.succ u ↔ v ∈ N.succ u ∧ ∀ r ∈ p, isComplete r → u ∉ interior r ∧ v ∉ interior r
  cost : ∀ u v, N'.cost u v = open Classical in
    if ∃ r ∈ p, isComplete r = false ∧ (u, v) ∈ consecutive r then List.replicate K 0 ++ (N.cost u v).drop K else N.cost u v
  length : ∀ r ∈ p, isComplete r = false → ∀ e ∈ consecutive r, K ≤ (N.cost e.1 e.2).length
  nonempty : ∀ r ∈ p, r ≠ []

private theorem zeroCosts {K : Nat} {N N' : Net} {es : List (Node × Node)} (h : es.foldlM (zeroCost K) N = .ok N') :
    N'.nodes = N.nodes ∧ N'.succ = N.succ ∧
      (∀ u v, N'.cost u v = if (u, v) ∈ es then List.replicate K 0 ++ (N.cost u v).drop K else N.cost u v) ∧
      ∀ e ∈ es, K ≤ (N.cost e.1 e.2).length := by
  refine foldlM_prefix (P := fun (p : List (Node × Node)) (M : Net) => M.nodes = N.nodes ∧ M.succ = N.succ ∧
      (∀ u v, M.cost u v = if (u, v) ∈ p then List.replicate K 0 ++ (N.cost u v).drop K else N.cost u v) ∧
      ∀ e ∈ p, K ≤ (N.cost e.1 e.2).length) es N N' (by simp) ?_ h
  rintro l1 e c c' _ ⟨i1, i2, i3, i4⟩ hstep
  unfold zeroCost at hstep
  split at hstep
  · split at hstep
    · cases hstep
    · rename_i hlen
      cases hstep
      have hlen' : K ≤ (N.cost e.1 e.2).length := by
        rw [i3] at hlen
        split at hlen
        · rename_i hmem
          exact i4 e hmem
        · omega
      refine ⟨i1, i2, ?_, ?_⟩
      · intro u v
        simp only
        by_cases huv : u = e.1 ∧ v = e.2
        · obtain ⟨rfl, rfl⟩ := huv
          rw [if_pos ⟨rfl, rfl⟩, if_pos (by simp), i3]
          split
          · congr 1
            rw [List.drop_append]
            simp
          · rfl
        · rw [if_neg huv, i3]
          have : ((u, v) ∈ l1 ++ [e]) ↔ (u, v) ∈ l1 := by
            simp only [List.mem_append, List.mem_singleton, or_iff_left_iff_imp]
            rintro rfl
            exact absurd ⟨rfl, rfl⟩ huv
          simp only [this]
      · intro e' he'
        rcases List.mem_append.1 he' with he' | he'
        · exact i4 e' he'
        · simp only [List.mem_singleton] at he'
          subst he'
          exact hlen'
  · cases hstep

theorem lock_inv {K : Nat} {N N' : Net} {pre : List (List Node)} (h : lock K pre N = .ok N') : Locked K N pre N' := by
  classical
  refine foldlM_prefix (P := Locked K N) pre N N' ?_ ?_ h
  · exact ⟨by simp, by simp, by simp, by simp, by simp⟩
  · intro l1 r c c' _ inv hstep
    unfold lockRoute at hstep
    split at hstep
    · cases hstep
    · rename_i hne
      have hnon : ∀ r' ∈ l1 ++ [r], r' ≠ [] := by
        intro r' hr'
        rcases List.mem_append.1 hr' with h' | h'
        · exact inv.nonempty r' h'
        · simp only [List.mem_singleton] at h'; subst h'; exact hne
      split at hstep
      · rename_i hc
        cases hstep
        refine ⟨?_, ?_, ?_, ?_, hnon⟩
        · intro v
          simp only [Net.removeNodes, List.mem_filter, decide_eq_true_eq, inv.nodes v, List.mem_append, List.mem_singleton]
          constructor
          · rintro ⟨⟨a, b⟩, d⟩
            refine ⟨a, ?_⟩
            rintro r' (h' | rfl) hc'
            · exact b r' h' hc'
            · exact d
          · rintro ⟨a, b⟩
            exact ⟨⟨a, fun r' hr' => b r' (Or.inl hr')⟩, b r (Or.inr rfl) hc⟩
        · intro u v
          simp only [Net.removeNodes, List.mem_append, List.mem_singleton]
          constructor
          · intro hv
            split at hv
            · simp at hv
            · rename_i hu
              simp only [List.mem_filter, decide_eq_true_eq, inv.arcs u v] at hv
              obtain ⟨⟨a, b⟩, d⟩ := hv
              refine ⟨a, ?_⟩
              rintro r' (h' | rfl) hc'
              · exact b r' h' hc'
              · exact ⟨hu, d⟩
          · rintro ⟨a, b⟩
            rw [if_neg (b r (Or.inr rfl) hc).1]
            simp only [List.mem_filter, decide_eq_true_eq, inv.arcs u v]
            exact ⟨⟨a, fun r' hr' => b r' (Or.inl hr')⟩, (b r (Or.inr rfl) hc).2⟩
        · intro u v
          show c.cost u v = _
          rw [inv.cost u v]
          have : (∃ r' ∈ l1 ++ [r], isComplete r' = false ∧ (u, v) ∈ consecutive r') ↔
              ∃ r' ∈ l1, isComplete r' = false ∧ (u, v) ∈ consecutive r' := by
            constructor
            · rintro ⟨r', hr', a, b⟩
              rcases List.mem_append.1 hr' with h' | h'
              · exact ⟨r', h', a, b⟩
              · simp only [List.mem_singleton] at h'
                subst h'
                rw [hc] at a
                cases a
            · rintro ⟨r', hr', a⟩
              exact ⟨r', List.mem_append_left _ hr', a⟩
          simp only [this]
        · intro r' hr' hc' e he
          rcases List.mem_append.1 hr' with h' | h'
          · exact inv.length r' h' hc' e he
          · simp only [List.mem_singleton] at h'
            subst h'
            rw [hc] at hc'
            cases hc'
      · rename_i hc
        simp only [Bool.not_eq_true] at hc
        obtain ⟨z1, z2, z3, z4⟩ := zeroCosts hstep
        have hcomp : ∀ (Q : List Node → Prop), (∀ r' ∈ l1 ++ [r], isComplete r' → Q r') ↔ ∀ r' ∈ l1, isComplete r' → Q r' := by
          intro Q
          constructor
          · intro hh r' hr'
            exact hh r' (List.mem_append_left _ hr')
          · intro hh r' hr' hc'
            rcases List.mem_append.1 hr' with h' | h'
            · exact hh r' h' hc'
            · simp only [List.mem_singleton] at h'
              subst h'
              rw [hc] at hc'
              cases hc'
        refine ⟨?_, ?_, ?_, ?_, hnon⟩
        · intro v
          rw [z1, inv.nodes v, hcomp]
        · intro u v
          rw [z2, inv.arcs u v, hcomp]
        · intro u v
          rw [z3, inv.cost u v]
          by_cases h1 : (u, v) ∈ consecutive r
          · have hex : ∃ r' ∈ l1 ++ [r], isComplete r' = false ∧ (u, v) ∈ consecutive r' := ⟨r, by simp, hc, h1⟩
            rw [if_pos h1, if_pos hex]
            split
            · congr 1
              rw [List.drop_append]
              simp
            · rfl
          · rw [if_neg h1]
            have : (∃ r' ∈ l1 ++ [r], isComplete r' = false ∧ (u, v) ∈ consecutive r') ↔
                ∃ r' ∈ l1, isComplete r' = false ∧ (u, v) ∈ consecutive r' := by
              constructor
              · rintro ⟨r', hr', a, b⟩
                rcases List.mem_append.1 hr' with h' | h'
                · exact ⟨r', h', a, b⟩
                · simp only [List.mem_singleton] at h'
                  subst h'
                  exact absurd b h1
              · rintro ⟨r', hr', a⟩
                exact ⟨r', List.mem_append_left _ hr', a⟩
            simp only [this]
        · intro r' hr' hc' e he
          rcases List.mem_append.1 hr' with h' | h'
          · exact inv.length r' h' hc' e he
          · simp only [List.mem_singleton] at h'
            subst h'
            have := z4 e he
            rw [inv.cost] at this
            split at this
            · rename_i hex
              obtain ⟨r'', hr'', hc'', he''⟩ := hex
              exact inv.length r'' hr'' hc'' e he''
            · exact this

/-- The nodes that complete preassigned routes take out of the network. -/
def lockedNodes (Q : List (List Node)) : List Node := (Q.filter isComplete).flatMap interior

theorem removeNodes_nil (N : Net) : N.removeNodes [] = N := by
  simp [Net.removeNodes]

theorem mem_removeNodes_succ {N : Net} {L : List Node} {u v : Node} :
    v ∈ (N.removeNodes L).succ u ↔ v ∈ N.succ u ∧ u ∉ L ∧ v ∉ L := by
  simp only [Net.removeNodes]
  by_cases hu : u ∈ L
  · simp [hu]
  · simp [hu]

private theorem zeroCosts_eq {K : Nat} {N N' : Net} {es : List (Node × Node)} (h : es.foldlM (zeroCost K) N = .ok N') :
    N' = { N with cost := N'.cost } := by
  refine foldlM_inv (P := fun (M : Net) => M = { N with cost := M.cost }) es N N' rfl ?_ h
  intro c e c' _ hc hstep
  unfold zeroCost at hstep
  split at hstep
  · split at hstep
    · cases hstep
    · simp only [Except.ok.injEq] at hstep
      rw [← hstep]
      rw [hc]
  · cases hstep

/-- Locking removes the nodes of the complete routes and changes costs. -/
theorem lock_eq {K : Nat} {N N' : Net} {pre : List (List Node)} (h : lock K pre N = .ok N') :
    N' = { N.removeNodes (lockedNodes pre) with cost := N'.cost } := by
  refine foldlM_prefix (P := fun (p : List (List Node)) (M : Net) => M = { N.removeNodes (lockedNodes p) with cost := M.cost })
    pre N N' ?_ ?_ h
  · simp [lockedNodes, removeNodes_nil]
  · intro l1 r c c' _ hc hstep
    unfold lockRoute at hstep
    split at hstep
    · cases hstep
    · split at hstep
      · rename_i hcomp
        simp only [Except.ok.injEq] at hstep
        rw [← hstep, hc]
        have hL : lockedNodes (l1 ++ [r]) = lockedNodes l1 ++ interior r := by
          simp [lockedNodes, List.filter_cons, hcomp]
        rw [hL]
        simp only [Net.removeNodes, Net.mk.injEq, true_and, and_true]
        refine ⟨?_, ?_⟩
        · rw [List.filter_filter]
          refine List.filter_congr (fun v _ => ?_)
          simp [and_comm]
        · funext u
          by_cases h1 : u ∈ lockedNodes l1
          · simp [h1]
          · by_cases h2 : u ∈ interior r
            · simp [h1, h2]
            · simp only [h1, h2, List.mem_append, or_self, if_false]
              rw [List.filter_filter]
              refine List.filter_congr (fun v _ => ?_)
              simp [and_comm]
      · rename_i hcomp
        have hz := zeroCosts_eq hstep
        have hL : lockedNodes (l1 ++ [r]) = lockedNodes l1 := by
          simp [lockedNodes, List.filter_cons, hcomp]
        rw [hL, hz, hc]

/-- `_lock` together with the check before it. -/
theorem lockStep_eq {K : Nat} {N N' : Net} {pre : List (List Node)} (h : lockStep K pre N = .ok N') :
    (∃ c, N' = { N.removeNodes (lockedNodes pre) with cost := c } ∧
      ∀ u v k, (c u v).getD k 0 = (N.cost u v).getD k 0 ∨ (c u v).getD k 0 = 0) ∧
    (∀ r ∈ pre, Along (fun u v => v ∈ N.succ u) r) := by
  unfold lockStep at h
  split at h
  · split at h
    · cases h
    · rename_i hck
      refine ⟨⟨N'.cost, lock_eq h, ?_⟩, ?_⟩
      · intro u v k
        rw [(lock_inv h).cost u v]
        split
        · by_cases hk : k < K
          · right
            simp [List.getD_eq_getElem?_getD, List.getElem?_append, hk, List.getElem?_replicate]
          · left
            simp [List.getD_eq_getElem?_getD, List.getElem?_append, hk, List.getElem?_replicate, List.getElem?_drop,
              Nat.add_sub_cancel' (not_lt.1 hk)]
        · exact Or.inl rfl
      · intro r hr
        unfold checkPreassignments at hck
        have h1 := (forM_ok_iff _ _).1 hck r hr
        rw [along_iff]
        intro u v huv
        have h2 := (forM_ok_iff _ _).1 h1 (u, v) huv
        by_contra hno
        simp [Net.hasEdge, hno] at h2
  · rename_i hp
    push Not at hp
    subst hp
    simp only [Except.ok.injEq] at h
    subst h
    exact ⟨⟨N.cost, by simp [lockedNodes, removeNodes_nil], fun _ _ _ => Or.inl rfl⟩, by simp⟩

end Vrpy
