import Verif.Model.GreedyPricing
import Verif.Proofs.Pricing

/-! Lemmas about the randomised greedy pricing. -/

namespace Vrpy

open Spec

namespace GreedyPricing

/-- The node a search starts from. -/
def start : Dir → Node
  | .fwd => .source
  | .bwd => .sink

/-- The node a search wants to reach. -/
def goal : Dir → Node
  | .fwd => .sink
  | .bwd => .source

/-- What a partial path satisfies. -/
structure Partial (cfg : GreedyPricing) (dir : Dir) (s : GPState) : Prop where
  ne : s.path ≠ []
  nodup : s.path.Nodup
  along : Along (fun u v => v ∈ cfg.G.succ u) s.path
  nodes : ∀ v ∈ s.path, v ∈ cfg.G.nodes
  fwd : dir = .fwd → s.path.head? = some .source
  bwd : dir = .bwd → s.path.getLast? = some .sink
  load : s.load = (s.path.map cfg.G.demand).sum
  time : s.time = legSum cfg.G.time s.path
  weight : s.weight = legSum cfg.weight s.path
  stops : s.stops + 1 = s.path.length
  cap : s.stops ≠ 0 → ∀ c, active cfg.cap = some c → s.load ≤ c
  dur : s.stops ≠ 0 → ∀ c, active cfg.duration = some c → s.time ≤ c

/-- The path can still be extended. -/
structure Open (cfg : GreedyPricing) (dir : Dir) (s : GPState) : Prop extends Partial cfg dir s where
  goal : goal dir ∉ s.path
  limit : ∀ n, cfg.numStops = some n → n = 0 ∨ s.stops < n

theorem mem_pool {cfg : GreedyPricing} {dir : Dir} {s : GPState} {v : Node} (h : v ∈ cfg.pool dir s) :
    (match dir with | .fwd => v ∈ cfg.G.succ (last dir s.path) | .bwd => last dir s.path ∈ cfg.G.succ v) ∧
    cfg.constraintsMet dir s (last dir s.path) v = true := by
  have h := (List.mem_insertionSort _).1 (List.mem_of_mem_take h)
  rw [List.mem_filter] at h
  cases dir with
  | fwd => exact h
  | bwd =>
    refine ⟨?_, h.2⟩
    simpa [Net.preds, Net.hasEdge] using (List.mem_filter.1 h.1).2

theorem constraintsMet_spec {cfg : GreedyPricing} {dir : Dir} {s : GPState} {u v : Node}
    (h : cfg.constraintsMet dir s u v = true) :
    v ∉ s.path ∧ ¬ (u = .source ∧ v = .sink) ∧ (∀ c, active cfg.cap = some c → s.load + cfg.G.demand v ≤ c) ∧
    (∀ d, active cfg.duration = some d → s.time + cfg.G.time (arc dir u v).1 (arc dir u v).2 ≤ d) := by
  unfold constraintsMet at h
  by_cases h1 : v ∈ s.path ∨ (u = .source ∧ v = .sink)
  · rw [if_pos h1] at h; cases h
  · rw [if_neg h1] at h
    simp only [Bool.not_eq_true', Bool.if_false_left, Bool.and_eq_true, decide_eq_true_eq, Bool.not_eq_false,
      Bool.decide_eq_true, Bool.and_true, Bool.if_true_right, Bool.not_not] at h
    refine ⟨fun hh => h1 (Or.inl hh), fun hh => h1 (Or.inr hh), ?_, ?_⟩
    · intro c hc
      simpa [withinLimit, hc] using h.1
    · intro c hc
      simpa [withinLimit, hc] using h.2

theorem push_partial {cfg : GreedyPricing} (hG : WellFormed cfg.G) {dir : Dir} {s : GPState} {v : Node}
    (h : Partial cfg dir s) (hv : v ∈ cfg.pool dir s) : Partial cfg dir (cfg.push dir v s) := by
  obtain ⟨hadj, hmet⟩ := mem_pool hv
  obtain ⟨hnew, _, hcap, hdur⟩ := constraintsMet_spec hmet
  cases dir with
  | fwd =>
    obtain ⟨xs, u, hp⟩ : ∃ xs u, s.path = xs ++ [u] := by
      rcases List.eq_nil_or_concat s.path with h0 | ⟨xs, u, h0⟩
      · exact absurd h0 h.ne
      · exact ⟨xs, u, by simpa using h0⟩
    have hlast : last .fwd s.path = u := by simp [last, hp]
    rw [hlast] at hadj hmet
    have hadj : v ∈ cfg.G.succ u := hadj
    have hpath : (cfg.push .fwd v s).path = xs ++ [u, v] := by simp [push, hp]
    refine ⟨?_, ?_, ?_, ?_, ?_, ?_, ?_, ?_, ?_, ?_, ?_, ?_⟩
    · simp [hpath]
    · have := h.nodup
      show (s.path ++ [v]).Nodup
      rw [List.nodup_append]
      exact ⟨this, by simp, fun a ha b hb => by simp at hb; subst hb; exact fun he => hnew (he ▸ ha)⟩
    · rw [along_iff, hpath, consecutive_append_two]
      intro a b hab
      rcases List.mem_append.1 hab with hab | hab
      · have := (along_iff _ _).1 h.along a b
        rw [hp] at this
        exact this hab
      · simp at hab
        rw [hab.1, hab.2]
        exact hadj
    · show ∀ w ∈ s.path ++ [v], w ∈ cfg.G.nodes
      intro w hw
      rcases List.mem_append.1 hw with hw | hw
      · exact h.nodes w hw
      · simp at hw; subst hw; exact (hG.edge_mem _ _ hadj).2
    · intro _
      have := h.fwd rfl
      show (s.path ++ [v]).head? = _
      rw [List.head?_append, this]
      rfl
    · intro hh; cases hh
    · show s.load + cfg.G.demand v = ((s.path ++ [v]).map cfg.G.demand).sum
      rw [h.load]; simp
    · show s.time + cfg.G.time (last .fwd s.path) v = _
      rw [hpath, legSum_append_two, hlast, h.time, hp]
    · show s.weight + cfg.weight (last .fwd s.path) v = _
      rw [hpath, legSum_append_two, hlast, h.weight, hp]
    · have := h.stops
      simp [push, this]
    · intro _ c hc
      exact hcap c hc
    · intro _ c hc
      exact hdur c hc
  | bwd =>
    obtain ⟨u, xs, hp⟩ : ∃ u xs, s.path = u :: xs := by
      cases hs : s.path with
      | nil => exact absurd hs h.ne
      | cons u xs => exact ⟨u, xs, rfl⟩
    have hlast : last .bwd s.path = u := by simp [last, hp]
    rw [hlast] at hadj hmet
    have hadj : u ∈ cfg.G.succ v := hadj
    have hpath : (cfg.push .bwd v s).path = v :: u :: xs := by simp [push, hp]
    refine ⟨?_, ?_, ?_, ?_, ?_, ?_, ?_, ?_, ?_, ?_, ?_, ?_⟩
    · simp [hpath]
    · show (v :: s.path).Nodup
      exact List.nodup_cons.2 ⟨hnew, h.nodup⟩
    · rw [hpath]
      have := h.along
      rw [hp] at this
      exact ⟨hadj, this⟩
    · show ∀ w ∈ v :: s.path, w ∈ cfg.G.nodes
      intro w hw
      rcases List.mem_cons.1 hw with rfl | hw
      · exact (hG.edge_mem _ _ hadj).1
      · exact h.nodes w hw
    · intro hh; cases hh
    · intro _
      have := h.bwd rfl
      show (v :: s.path).getLast? = _
      rw [List.getLast?_cons, this]
      rfl
    · show s.load + cfg.G.demand v = ((v :: s.path).map cfg.G.demand).sum
      rw [h.load]; simp [add_comm]
    · show s.time + cfg.G.time v (last .bwd s.path) = _
      rw [hpath, hlast, h.time, hp, legSum_cons_cons, add_comm]
    · show s.weight + cfg.weight v (last .bwd s.path) = _
      rw [hpath, hlast, h.weight, hp, legSum_cons_cons, add_comm]
    · have := h.stops
      simp [push, this]
    · intro _ c hc
      exact hcap c hc
    · intro _ c hc
      exact hdur c hc

/-- What a run leaves behind when its result is used. -/
def Ended (cfg : GreedyPricing) (dir : Dir) (s : GPState) : Prop :=
  (Partial cfg dir s ∧ s.stops ≠ 0 ∧ s.path.head? = some .source ∧ s.path.getLast? = some .sink ∧
    (∀ n, cfg.numStops = some n → n = 0 ∨ s.stops ≤ n)) ∨
  (dir = .fwd ∧ cfg.numStops = some s.stops ∧ s.stops ≠ 0 ∧ ∃ s0 : GPState, ∃ u, Partial cfg dir s0 ∧ Node.sink ∉ s0.path ∧
    s0.path.getLast? = some u ∧ u ≠ .sink ∧ Node.sink ∈ cfg.G.succ u ∧
    s = { s0 with path := s0.path ++ [.sink] })

theorem loop_ended {cfg : GreedyPricing} (hG : WellFormed cfg.G) {dir : Dir} {rand : Nat → Nat} (n : Nat) (s s' : GPState)
    (h : Open cfg dir s) (hl : cfg.loop dir rand n s = some s') (hnew : cfg.accepted s' = true) : Ended cfg dir s' := by
  induction n generalizing s with
  | zero => cases hl
  | succ n ih =>
    unfold loop at hl
    set s1 := cfg.pick dir (rand s.stops) s with hs1
    cases hv : s1.newNode with
    | none =>
      have hu : cfg.update dir s1 = (s1, false) := by simp [update, hv]
      rw [hu] at hl
      simp only [Option.some.injEq] at hl
      subst hl
      simp [accepted, hv] at hnew
    | some v =>
      have hvp : v ∈ cfg.pool dir s := List.mem_of_getElem? (by rw [← hv, hs1]; rfl)
      by_cases hf : cfg.falsy v = true
      · have hu : cfg.update dir s1 = (s1, false) := by simp [update, hv, hf]
        rw [hu] at hl
        simp only [Option.some.injEq] at hl
        subst hl
        simp [accepted, hv, hf] at hnew
      · have hpush : cfg.push dir v s1 = cfg.push dir v s := rfl
        have hu : cfg.update dir s1 = cfg.finish dir v (cfg.push dir v s) := by
          simp [update, hv, hf, hpush]
        rw [hu] at hl
        have hP := push_partial hG h.toPartial hvp
        have hst : (cfg.push dir v s).stops = s.stops + 1 := rfl
        have hnn : (cfg.push dir v s).newNode = some v := rfl
        generalize hs2 : cfg.push dir v s = s2 at hl hP hst hnn
        cases dir with
        | fwd =>
          have hlast2 : s2.path.getLast? = some v := by rw [← hs2]; simp [push]
          have hmem2 : ∀ w, w ∈ s2.path ↔ w ∈ s.path ∨ w = v := by rw [← hs2]; simp [push]
          by_cases hlim : some s2.stops = cfg.numStops ∧ v ≠ .sink
          · by_cases hedge : cfg.G.hasEdge v .sink = true
            · have hfin : cfg.finish .fwd v s2 = ({ s2 with path := s2.path ++ [.sink] }, false) := by
                simp only [finish, hlim, hedge, ne_eq, not_false_eq_true, and_self, if_true]
              rw [hfin] at hl
              simp only [Option.some.injEq] at hl
              subst hl
              right
              refine ⟨rfl, hlim.1.symm, by show s2.stops ≠ 0; omega, s2, v, hP, ?_, hlast2, hlim.2, ?_, rfl⟩
              · rw [hmem2]
                rintro (hh | hh)
                · exact h.goal hh
                · exact hlim.2 hh.symm
              · simpa [Net.hasEdge] using hedge
            · have hfin : cfg.finish .fwd v s2 = ({ s2 with newNode := none }, false) := by
                simp only [finish, hlim, hedge, ne_eq, not_false_eq_true, and_self, if_true, Bool.false_eq_true, if_false]
              rw [hfin] at hl
              simp only [Option.some.injEq] at hl
              subst hl
              simp [accepted] at hnew
          · have hfin : cfg.finish .fwd v s2 = (s2, decide (v ≠ .sink)) := by
              simp only [finish, hlim, if_false]
            rw [hfin] at hl
            by_cases hvs : v = .sink
            · simp only [hvs, ne_eq, not_true_eq_false, decide_false, Option.some.injEq] at hl
              subst hl
              left
              refine ⟨hP, by omega, hP.fwd rfl, by rw [hlast2, hvs], ?_⟩
              intro m hm
              rcases h.limit m hm with h0 | h0
              · exact Or.inl h0
              · right; omega
            · simp only [hvs, ne_eq, not_false_eq_true, decide_true] at hl
              refine ih s2 ⟨hP, ?_, ?_⟩ hl
              · show Node.sink ∉ s2.path
                rw [hmem2]
                rintro (hh | hh)
                · exact h.goal hh
                · exact hvs hh.symm
              · intro m hm
                rcases h.limit m hm with h0 | h0
                · exact Or.inl h0
                · right
                  have hne : s2.stops ≠ m := by
                    rintro rfl
                    exact hlim ⟨hm.symm, hvs⟩
                  omega
        | bwd =>
          have hhead2 : s2.path.head? = some v := by rw [← hs2]; simp [push]
          have hmem2 : ∀ w, w ∈ s2.path ↔ w = v ∨ w ∈ s.path := by rw [← hs2]; simp [push]
          by_cases hlim : some s2.stops = cfg.numStops ∧ v ≠ .source
          · have hno : v ∉ cfg.G.succ .sink := by rw [hG.no_out_of_sink]; simp
            have hfin : cfg.finish .bwd v s2 = ({ s2 with newNode := none }, false) := by
              simp only [finish, hlim, hno, ne_eq, not_false_eq_true, and_self, if_true, if_false]
            rw [hfin] at hl
            simp only [Option.some.injEq] at hl
            subst hl
            simp [accepted] at hnew
          · have hfin : cfg.finish .bwd v s2 = (s2, decide (v ≠ .source)) := by
              simp only [finish, hlim, if_false]
            rw [hfin] at hl
            by_cases hvs : v = .source
            · simp only [hvs, ne_eq, not_true_eq_false, decide_false, Option.some.injEq] at hl
              subst hl
              left
              refine ⟨hP, by omega, by rw [hhead2, hvs], hP.bwd rfl, ?_⟩
              intro m hm
              rcases h.limit m hm with h0 | h0
              · exact Or.inl h0
              · right; omega
            · simp only [hvs, ne_eq, not_false_eq_true, decide_true] at hl
              refine ih s2 ⟨hP, ?_, ?_⟩ hl
              · show Node.source ∉ s2.path
                rw [hmem2]
                rintro (hh | hh)
                · exact hvs hh.symm
                · exact h.goal hh
              · intro m hm
                rcases h.limit m hm with h0 | h0
                · exact Or.inl h0
                · right
                  have hne : s2.stops ≠ m := by
                    rintro rfl
                    exact hlim ⟨hm.symm, hvs⟩
                  omega

theorem start_open {cfg : GreedyPricing} (hG : WellFormed cfg.G) (h1 : cfg.G.demand .source = 0)
    (h2 : cfg.G.demand .sink = 0) (dir : Dir) :
    Open cfg dir { path := [match dir with | .fwd => Node.source | .bwd => .sink] } := by
  cases dir with
  | fwd =>
    refine ⟨⟨by simp, by simp, trivial, by simp [hG.source_mem], by simp, by simp, by simp [h1], by simp [legSum],
      by simp [legSum], by simp, by simp, by simp⟩, by simp [goal], ?_⟩
    intro n _; simp; omega
  | bwd =>
    refine ⟨⟨by simp, by simp, trivial, by simp [hG.sink_mem], by simp, by simp, by simp [h2], by simp [legSum],
      by simp [legSum], by simp, by simp, by simp⟩, by simp [goal], ?_⟩
    intro n _; simp; omega

/-- Each step adds a new node, so a run has at most as many steps as there are nodes. -/
theorem loop_terminates {cfg : GreedyPricing} (hG : WellFormed cfg.G) {dir : Dir} {rand : Nat → Nat} (n : Nat) (s : GPState)
    (h : Partial cfg dir s) (hn : cfg.G.nodes.length < n + s.path.length) : ∃ s', cfg.loop dir rand n s = some s' := by
  induction n generalizing s with
  | zero =>
    exfalso
    have := (List.subperm_of_subset h.nodup h.nodes).length_le
    omega
  | succ n ih =>
    unfold loop
    cases hu : cfg.update dir (cfg.pick dir (rand s.stops) s) with
    | mk s2 b =>
      cases b with
      | false => exact ⟨s2, rfl⟩
      | true =>
        simp only
        cases hv : (cfg.pick dir (rand s.stops) s).newNode with
        | none => simp [update, hv] at hu
        | some v =>
          have hvp : v ∈ cfg.pool dir s := List.mem_of_getElem? (by rw [← hv]; rfl)
          have hP := push_partial hG h hvp
          by_cases hf : cfg.falsy v = true
          · simp [update, hv, hf] at hu
          · have hu' : cfg.finish dir v (cfg.push dir v s) = (s2, true) := by
              rw [← hu]
              simp only [update, hv, hf, Bool.false_eq_true, if_false]
              rfl
            have hs2 : s2 = cfg.push dir v s := by
              unfold finish at hu'
              cases dir <;> (simp only at hu'; split at hu')
              · split at hu' <;> simp at hu'
              · exact (Prod.mk.inj hu').1.symm
              · split at hu' <;> simp at hu'
              · exact (Prod.mk.inj hu').1.symm
            rw [hs2]
            refine ih _ hP ?_
            have h1 := hP.stops
            have h2 := h.stops
            have h3 : (cfg.push dir v s).stops = s.stops + 1 := rfl
            omega

end GreedyPricing

end Vrpy
