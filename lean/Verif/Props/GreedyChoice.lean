import Verif.Props.GreedyPricing

/-!
# C71: the choices of the randomised greedy pricing
-/

namespace Vrpy

open Spec

/-! ## Specification -/

/-- A path can be continued by the node `v`: there is an edge from its end, `v` is new, not the empty route, and load and
travel time of the longer path stay within the limits. -/
structure Spec.MayFollow (G : Net) (cap dur : Option ℚ) (p : List Node) (v : Node) : Prop where
  edge : ∃ u, p.getLast? = some u ∧ v ∈ G.succ u ∧ ¬ (u = .source ∧ v = .sink)
  fresh : v ∉ p
  load : Within cap (load G (p ++ [v]))
  time : Within dur (travel G (p ++ [v]))

/-- The node `v` can be put before a path. -/
structure Spec.MayPrecede (G : Net) (cap dur : Option ℚ) (p : List Node) (v : Node) : Prop where
  edge : ∃ u, p.head? = some u ∧ u ∈ G.succ v
  fresh : v ∉ p
  load : Within cap (Spec.load G (v :: p))
  time : Within dur (travel G (v :: p))

/-- `v` is a candidate and there are not five candidates better than `v`. -/
def Spec.AmongFiveBest (cand : Node → Prop) (w : Node → ℚ) (v : Node) : Prop :=
  cand v ∧ ¬ ∃ l : List Node, l.Nodup ∧ l.length = 5 ∧ ∀ x ∈ l, cand x ∧ w x < w v

/-- `v` is a candidate and there are not five other candidates at least as good as `v`. -/
def Spec.SurelyAmongFive (cand : Node → Prop) (w : Node → ℚ) (v : Node) : Prop :=
  cand v ∧ ¬ ∃ l : List Node, l.Nodup ∧ l.length = 5 ∧ v ∉ l ∧ ∀ x ∈ l, cand x ∧ w x ≤ w v

/-- Every step of the path, read from Source, is a step to one of the five best candidates; the step to Sink of a route with
as many customers as allowed is not looked at. -/
def Spec.StepsForward (G : Net) (w : Node → Node → ℚ) (cap dur : Option ℚ) (lim : Option Nat) (r : List Node) : Prop :=
  ∀ pre u v post, r = pre ++ u :: v :: post →
    (v = .sink ∧ AtStopLimit lim r) ∨ AmongFiveBest (MayFollow G cap dur (pre ++ [u])) (w u) v

/-- Every step of the path, read from Sink, is a step back to one of the five best candidates. -/
def Spec.StepsBackward (G : Net) (w : Node → Node → ℚ) (cap dur : Option ℚ) (r : List Node) : Prop :=
  ∀ pre u v post, r = pre ++ v :: u :: post →
    AmongFiveBest (MayPrecede G cap dur (u :: post)) (fun x => w x u) v

namespace GreedyPricing

/-! ## The first five of a sorted list -/

section Five
variable {l : List Node} {w : Node → ℚ} {v : Node}

private def ordered (w : Node → ℚ) (l : List Node) : List Node := l.insertionSort (fun a b => w a ≤ w b)

private theorem ordered_pairwise (w : Node → ℚ) (l : List Node) : (ordered w l).Pairwise (fun a b => w a ≤ w b) := by
  haveI : Std.Total (fun a b : Node => w a ≤ w b) := ⟨fun a b => le_total _ _⟩
  haveI : IsTrans Node (fun a b : Node => w a ≤ w b) := ⟨fun a b c => le_trans⟩
  exact List.pairwise_insertionSort _ _

private theorem five_of_mem (hv : v ∈ (ordered w l).take 5) : AmongFiveBest (· ∈ l) w v := by
  refine ⟨(List.mem_insertionSort _).1 (List.mem_of_mem_take hv), ?_⟩
  rintro ⟨m, hnd, h5, hm⟩
  obtain ⟨i, hi, rfl⟩ := List.mem_iff_getElem.1 hv
  have hi5 : i < 5 := by simp at hi; omega
  have hil : i < (ordered w l).length := by simp at hi; omega
  have hsub : ∀ x ∈ m, x ∈ (ordered w l).take i := by
    intro x hx
    obtain ⟨hxl, hlt⟩ := hm x hx
    have hxo : x ∈ ordered w l := (List.mem_insertionSort _).2 hxl
    obtain ⟨j, hj, rfl⟩ := List.mem_iff_getElem.1 hxo
    rw [List.getElem_take] at hlt
    have hji : j < i := by
      by_contra hge
      rcases Nat.lt_or_ge i j with hij | hij
      · have := List.pairwise_iff_getElem.1 (ordered_pairwise w l) i j hil hj hij
        exact absurd hlt (not_lt.2 this)
      · have : j = i := by omega
        subst this
        exact lt_irrefl _ hlt
    exact List.mem_iff_getElem.2 ⟨j, by simp; omega, by simp⟩
  have := (List.subperm_of_subset hnd hsub).length_le
  rw [h5, List.length_take] at this
  omega

private theorem mem_of_five (hl : l.Nodup) (hv : SurelyAmongFive (· ∈ l) w v) : v ∈ (ordered w l).take 5 := by
  obtain ⟨hvl, hno⟩ := hv
  have hvo : v ∈ ordered w l := (List.mem_insertionSort _).2 hvl
  have hnd : (ordered w l).Nodup := (List.perm_insertionSort _ l).nodup_iff.2 hl
  obtain ⟨i, hi, rfl⟩ := List.mem_iff_getElem.1 hvo
  by_contra hnot
  have hi5 : 5 ≤ i := by
    by_contra h
    exact hnot (List.mem_iff_getElem.2 ⟨i, by simp; omega, by simp⟩)
  refine hno ⟨(ordered w l).take 5, hnd.sublist (List.take_sublist _ _), by simp; omega, hnot, ?_⟩
  intro x hx
  refine ⟨(List.mem_insertionSort _).1 (List.mem_of_mem_take hx), ?_⟩
  obtain ⟨j, hj, rfl⟩ := List.mem_iff_getElem.1 hx
  rw [List.getElem_take]
  exact List.pairwise_iff_getElem.1 (ordered_pairwise w l) j i _ hi (by simp at hj; omega)

private theorem among_congr {p q : Node → Prop} (h : ∀ x, p x ↔ q x) {w : Node → ℚ} :
    AmongFiveBest p w v ↔ AmongFiveBest q w v := by
  have : p = q := funext fun x => propext (h x)
  rw [this]

private theorem surely_congr {p q : Node → Prop} (h : ∀ x, p x ↔ q x) {w : Node → ℚ} :
    SurelyAmongFive p w v ↔ SurelyAmongFive q w v := by
  have : p = q := funext fun x => propext (h x)
  rw [this]

end Five

/-! ## The pool -/

private theorem active_within {lim : Option ℚ} {x : ℚ} : (∀ c, active lim = some c → x ≤ c) ↔ Within lim x := by
  cases lim with
  | none => simp [active, Within]
  | some d =>
    by_cases hd : d = 0
    · simp [active, Within, hd]
    · simp [active, Within, hd]

private theorem constraintsMet_iff {cfg : GreedyPricing} {dir : Dir} {s : GPState} {u v : Node} :
    cfg.constraintsMet dir s u v = true ↔ v ∉ s.path ∧ ¬ (u = .source ∧ v = .sink) ∧
      Within cfg.cap (s.load + cfg.G.demand v) ∧
      Within cfg.duration (s.time + cfg.G.time (arc dir u v).1 (arc dir u v).2) := by
  constructor
  · intro h
    obtain ⟨a, b, c, d⟩ := constraintsMet_spec h
    exact ⟨a, b, active_within.1 c, active_within.1 d⟩
  · rintro ⟨a, b, c, d⟩
    have c := active_within.2 c
    have d := active_within.2 d
    have h1 : ¬ (v ∈ s.path ∨ (u = .source ∧ v = .sink)) := by tauto
    have hc : withinLimit cfg.cap (s.load + cfg.G.demand v) = true := by
      unfold withinLimit
      split
      · simpa using c _ (by assumption)
      · rfl
    have hd : withinLimit cfg.duration (s.time + cfg.G.time (arc dir u v).1 (arc dir u v).2) = true := by
      unfold withinLimit
      split
      · simpa using d _ (by assumption)
      · rfl
    simp only [constraintsMet, h1, if_false, hc, hd]
    rfl

/-- The neighbours among which the pool is chosen. -/
private def candidates (cfg : GreedyPricing) (dir : Dir) (s : GPState) : List Node :=
  (match dir with | .fwd => cfg.G.succ (last dir s.path) | .bwd => cfg.G.preds (last dir s.path)).filter
    (fun v => cfg.constraintsMet dir s (last dir s.path) v)

private theorem pool_eq (cfg : GreedyPricing) (dir : Dir) (s : GPState) :
    cfg.pool dir s = (ordered (fun a => cfg.weight (arc dir (last dir s.path) a).1 (arc dir (last dir s.path) a).2)
      (cfg.candidates dir s)).take 5 := rfl

private theorem candidates_nodup {cfg : GreedyPricing} (hG : WellFormed cfg.G) (dir : Dir) (s : GPState) :
    (cfg.candidates dir s).Nodup := by
  cases dir with
  | fwd => exact (hG.succ_nodup _).filter _
  | bwd => exact (hG.nodes_nodup.filter _).filter _

private theorem mem_candidates_fwd {cfg : GreedyPricing} {s : GPState} (h : Partial cfg .fwd s) {pre : List Node} {u : Node}
    (hp : s.path = pre ++ [u]) (v : Node) : v ∈ cfg.candidates .fwd s ↔ MayFollow cfg.G cfg.cap cfg.duration (pre ++ [u]) v := by
  have hlast : last .fwd s.path = u := by simp [last, hp]
  have hload : s.load + cfg.G.demand v = load cfg.G ((pre ++ [u]) ++ [v]) := by
    rw [h.load, hp, load, List.map_append (l₁ := pre ++ [u]), List.sum_append]
    simp
  have htime : s.time + cfg.G.time u v = travel cfg.G ((pre ++ [u]) ++ [v]) := by
    rw [h.time, hp, travel]
    have := legSum_append_two cfg.G.time pre u v
    simp only [List.append_assoc, List.cons_append, List.nil_append] at this ⊢
    rw [this]
  simp only [candidates, hlast, List.mem_filter, constraintsMet_iff, arc, hload, htime]
  constructor
  · rintro ⟨a, b, c, d, e⟩
    exact ⟨⟨u, by simp, a, c⟩, hp ▸ b, d, e⟩
  · rintro ⟨⟨u', hu', a, c⟩, b, d, e⟩
    have : u' = u := by simpa using hu'.symm
    subst this
    exact ⟨a, hp ▸ b, c, d, e⟩

private theorem mem_candidates_bwd {cfg : GreedyPricing} (hG : WellFormed cfg.G) {s : GPState} (h : Partial cfg .bwd s)
    {u : Node} {post : List Node} (hs : Node.source ∉ s.path)
    (hp : s.path = u :: post) (v : Node) : v ∈ cfg.candidates .bwd s ↔ MayPrecede cfg.G cfg.cap cfg.duration (u :: post) v := by
  have hlast : last .bwd s.path = u := by simp [last, hp]
  have hu : u ≠ .source := by
    rintro rfl
    simp [hp] at hs
  have hload : s.load + cfg.G.demand v = load cfg.G (v :: u :: post) := by
    rw [h.load, hp, load]
    simp [add_comm]
  have htime : s.time + cfg.G.time v u = travel cfg.G (v :: u :: post) := by
    rw [h.time, hp, travel, legSum_cons_cons, add_comm]
  simp only [candidates, hlast, List.mem_filter, constraintsMet_iff, arc, hload, htime, Net.preds]
  constructor
  · rintro ⟨⟨_, a⟩, b, c, d, e⟩
    exact ⟨⟨u, rfl, by simpa [Net.hasEdge] using a⟩, hp ▸ b, d, e⟩
  · rintro ⟨⟨u', hu', a⟩, b, d, e⟩
    have : u' = u := by simpa using hu'.symm
    subst this
    exact ⟨⟨(hG.edge_mem _ _ a).1, by simpa [Net.hasEdge] using a⟩, hp ▸ b, fun hh => hu hh.1, d, e⟩

/-! ## What a run does -/

/-- Every step so far went to one of the five best candidates. -/
private def Steps (cfg : GreedyPricing) : Dir → List Node → Prop
  | .fwd, r => ∀ pre u v post, r = pre ++ u :: v :: post →
      AmongFiveBest (MayFollow cfg.G cfg.cap cfg.duration (pre ++ [u])) (cfg.weight u) v
  | .bwd, r => StepsBackward cfg.G cfg.weight cfg.cap cfg.duration r

private theorem split_snoc {r : List Node} {w : Node} {pre : List Node} {u v : Node} {post : List Node}
    (h : r ++ [w] = pre ++ u :: v :: post) : (∃ post', r = pre ++ u :: v :: post') ∨ (r = pre ++ [u] ∧ v = w) := by
  rcases List.eq_nil_or_concat post with rfl | ⟨post', x, rfl⟩
  · right
    have h : r ++ [w] = (pre ++ [u]) ++ [v] := by simpa using h
    obtain ⟨a, b⟩ := List.append_inj' h rfl
    exact ⟨a, by simpa using b.symm⟩
  · left
    have h : r ++ [w] = (pre ++ u :: v :: post') ++ [x] := by simpa using h
    exact ⟨post', (List.append_inj' h rfl).1⟩

private theorem steps_push {cfg : GreedyPricing} (hG : WellFormed cfg.G) {dir : Dir} {s : GPState} {v : Node}
    (h : Open cfg dir s) (hst : cfg.Steps dir s.path) (hv : v ∈ cfg.pool dir s) : cfg.Steps dir (cfg.push dir v s).path := by
  rw [pool_eq] at hv
  have h5 := five_of_mem hv
  cases dir with
  | fwd =>
    intro pre u x post heq
    have heq : s.path ++ [v] = pre ++ u :: x :: post := heq
    rcases split_snoc heq with ⟨post', hp⟩ | ⟨hp, rfl⟩
    · exact hst pre u x post' hp
    · have hlast : last .fwd s.path = u := by simp [last, hp]
      rw [hlast] at h5
      exact (among_congr (mem_candidates_fwd h.toPartial hp)).1 h5
  | bwd =>
    intro pre u x post heq
    have heq : v :: s.path = pre ++ x :: u :: post := heq
    cases pre with
    | nil =>
      simp only [List.nil_append, List.cons.injEq] at heq
      obtain ⟨rfl, hp⟩ := heq
      have hlast : last .bwd s.path = u := by simp [last, hp]
      rw [hlast] at h5
      exact (among_congr (mem_candidates_bwd hG h.toPartial h.goal hp)).1 h5
    | cons y pre =>
      simp only [List.cons_append, List.cons.injEq] at heq
      exact hst pre u x post heq.2

/-- What is known about the steps of a run whose result is used. -/
private def StepsDone (cfg : GreedyPricing) (dir : Dir) (s : GPState) : Prop :=
  cfg.Steps dir s.path ∨
    (dir = .fwd ∧ cfg.numStops = some s.stops ∧ s.stops ≠ 0 ∧ s.path.length = s.stops + 2 ∧
      ∃ p u, s.path = p ++ [u, .sink] ∧ cfg.Steps .fwd (p ++ [u]))

private theorem loop_steps {cfg : GreedyPricing} (hG : WellFormed cfg.G) {dir : Dir} {rand : Nat → Nat} (n : Nat) (s s' : GPState)
    (h : Open cfg dir s) (hst : cfg.Steps dir s.path) (hl : cfg.loop dir rand n s = some s') (hnew : cfg.accepted s' = true) :
    cfg.StepsDone dir s' := by
  induction n generalizing s with
  | zero => cases hl
  | succ n ih =>
    unfold loop at hl
    set s1 := cfg.pick dir (rand s.stops) s with hs1
    cases hv : s1.newNode with
    | none =>
      have hu : cfg.update dir s1 = (s1, false) := by simp [update, hv]
      rw [hu] at hl
      simp only [Option.some.injEq] at hl
      subst hl
      simp [accepted, hv] at hnew
    | some v =>
      have hvp : v ∈ cfg.pool dir s := List.mem_of_getElem? (by rw [← hv, hs1]; rfl)
      by_cases hf : cfg.falsy v = true
      · have hu : cfg.update dir s1 = (s1, false) := by simp [update, hv, hf]
        rw [hu] at hl
        simp only [Option.some.injEq] at hl
        subst hl
        simp [accepted, hv, hf] at hnew
      · have hpush : cfg.push dir v s1 = cfg.push dir v s := rfl
        have hu : cfg.update dir s1 = cfg.finish dir v (cfg.push dir v s) := by
          simp [update, hv, hf, hpush]
        rw [hu] at hl
        have hP := push_partial hG h.toPartial hvp
        have hS := steps_push hG h hst hvp
        have hstp : (cfg.push dir v s).stops = s.stops + 1 := rfl
        generalize hs2 : cfg.push dir v s = s2 at hl hP hstp hS
        cases dir with
        | fwd =>
          have hpath2 : s2.path = s.path ++ [v] := by rw [← hs2]; simp [push]
          have hmem2 : ∀ w, w ∈ s2.path ↔ w ∈ s.path ∨ w = v := by simp [hpath2]
          by_cases hlim : some s2.stops = cfg.numStops ∧ v ≠ .sink
          · by_cases hedge : cfg.G.hasEdge v .sink = true
            · have hfin : cfg.finish .fwd v s2 = ({ s2 with path := s2.path ++ [.sink] }, false) := by
                simp only [finish, hlim, hedge, ne_eq, not_false_eq_true, and_self, if_true]
              rw [hfin] at hl
              simp only [Option.some.injEq] at hl
              subst hl
              right
              refine ⟨rfl, hlim.1.symm, by show s2.stops ≠ 0; omega, ?_, s.path, v, by simp [hpath2], ?_⟩
              · have := hP.stops
                simp only [List.length_append, List.length_cons, List.length_nil]
                omega
              rw [← hpath2]
              exact hS
            · have hfin : cfg.finish .fwd v s2 = ({ s2 with newNode := none }, false) := by
                simp only [finish, hlim, hedge, ne_eq, not_false_eq_true, and_self, if_true, Bool.false_eq_true, if_false]
              rw [hfin] at hl
              simp only [Option.some.injEq] at hl
              subst hl
              simp [accepted] at hnew
          · have hfin : cfg.finish .fwd v s2 = (s2, decide (v ≠ .sink)) := by
              simp only [finish, hlim, if_false]
            rw [hfin] at hl
            by_cases hvs : v = .sink
            · simp only [hvs, ne_eq, not_true_eq_false, decide_false, Option.some.injEq] at hl
              subst hl
              exact Or.inl hS
            · simp only [hvs, ne_eq, not_false_eq_true, decide_true] at hl
              refine ih s2 ⟨hP, ?_, ?_⟩ hS hl
              · show Node.sink ∉ s2.path
                rw [hmem2]
                rintro (hh | hh)
                · exact h.goal hh
                · exact hvs hh.symm
              · intro m hm
                rcases h.limit m hm with h0 | h0
                · exact Or.inl h0
                · right
                  have hne : s2.stops ≠ m := by
                    rintro rfl
                    exact hlim ⟨hm.symm, hvs⟩
                  omega
        | bwd =>
          have hmem2 : ∀ w, w ∈ s2.path ↔ w = v ∨ w ∈ s.path := by rw [← hs2]; simp [push]
          by_cases hlim : some s2.stops = cfg.numStops ∧ v ≠ .source
          · have hno : v ∉ cfg.G.succ .sink := by rw [hG.no_out_of_sink]; simp
            have hfin : cfg.finish .bwd v s2 = ({ s2 with newNode := none }, false) := by
              simp only [finish, hlim, hno, ne_eq, not_false_eq_true, and_self, if_true, if_false]
            rw [hfin] at hl
            simp only [Option.some.injEq] at hl
            subst hl
            simp [accepted] at hnew
          · have hfin : cfg.finish .bwd v s2 = (s2, decide (v ≠ .source)) := by
              simp only [finish, hlim, if_false]
            rw [hfin] at hl
            by_cases hvs : v = .source
            · simp only [hvs, ne_eq, not_true_eq_false, decide_false, Option.some.injEq] at hl
              subst hl
              exact Or.inl hS
            · simp only [hvs, ne_eq, not_false_eq_true, decide_true] at hl
              refine ih s2 ⟨hP, ?_, ?_⟩ hS hl
              · show Node.source ∉ s2.path
                rw [hmem2]
                rintro (hh | hh)
                · exact hvs hh.symm
                · exact h.goal hh
              · intro m hm
                rcases h.limit m hm with h0 | h0
                · exact Or.inl h0
                · right
                  have hne : s2.stops ≠ m := by
                    rintro rfl
                    exact hlim ⟨hm.symm, hvs⟩
                  omega

/-! ## What a run can do -/

private theorem finish_stops (cfg : GreedyPricing) (dir : Dir) (v : Node) (s : GPState) : (cfg.finish dir v s).1.stops = s.stops := by
  unfold finish
  cases dir <;> (simp only; split) <;> (try split) <;> rfl

private theorem update_more {cfg : GreedyPricing} {dir : Dir} {s s' : GPState} (h : cfg.update dir s = (s', true)) :
    s'.stops = s.stops + 1 := by
  unfold update at h
  split at h
  · cases h
  · rename_i v hv
    split at h
    · cases h
    · have := finish_stops cfg dir v (cfg.push dir v s)
      rw [h] at this
      exact this

/-- A run depends on the random choices of the steps to come only. -/
private theorem loop_congr {cfg : GreedyPricing} {dir : Dir} {r1 r2 : Nat → Nat} (n : Nat) (s : GPState)
    (h : ∀ j, s.stops ≤ j → r1 j = r2 j) : cfg.loop dir r1 n s = cfg.loop dir r2 n s := by
  induction n generalizing s with
  | zero => rfl
  | succ n ih =>
    unfold loop
    rw [h s.stops le_rfl]
    cases hu : cfg.update dir (cfg.pick dir (r2 s.stops) s) with
    | mk s' b =>
      cases b with
      | false => rfl
      | true =>
        refine ih s' (fun j hj => h j ?_)
        have h1 := update_more hu
        have h2 : (cfg.pick dir (r2 s.stops) s).stops = s.stops := rfl
        omega

/-- One step to a node of the pool. -/
private theorem loop_step {cfg : GreedyPricing} {dir : Dir} {s : GPState} {v : Node} (hv : v ∈ cfg.pool dir s)
    (hf : cfg.falsy v = false) (n : Nat) (rand : Nat → Nat) : ∃ i,
      cfg.loop dir (fun j => if j = s.stops then i else rand j) (n + 1) s =
        match cfg.finish dir v (cfg.push dir v s) with
        | (s', true) => cfg.loop dir rand n s'
        | (s', false) => some s' := by
  obtain ⟨i, hi, rfl⟩ := List.mem_iff_getElem.1 hv
  refine ⟨i, ?_⟩
  have hpick : (cfg.pick dir i s).newNode = some (cfg.pool dir s)[i] := by
    simp [pick, Nat.mod_eq_of_lt hi, List.getElem?_eq_getElem hi]
  have hu : cfg.update dir (cfg.pick dir i s) = cfg.finish dir (cfg.pool dir s)[i] (cfg.push dir (cfg.pool dir s)[i] s) := by
    unfold update
    rw [hpick]
    simp only [hf, Bool.false_eq_true, if_false]
    rfl
  conv_lhs => unfold loop
  rw [if_pos rfl, hu]
  cases hfin : cfg.finish dir (cfg.pool dir s)[i] (cfg.push dir (cfg.pool dir s)[i] s) with
  | mk s' b =>
    cases b with
    | false => rfl
    | true =>
      refine loop_congr n s' (fun j hj => ?_)
      have h1 := finish_stops cfg dir (cfg.pool dir s)[i] (cfg.push dir (cfg.pool dir s)[i] s)
      have h2 : (cfg.push dir (cfg.pool dir s)[i] s).stops = s.stops + 1 := rfl
      rw [hfin] at h1
      simp only at h1
      rw [if_neg]
      omega

/-- A run from a partial path can follow any continuation all of whose steps are surely among the five best. -/
private theorem loop_follows {cfg : GreedyPricing} (hG : WellFormed cfg.G) (rest : List Node) (n : Nat) (s : GPState)
    (h : Partial cfg .fwd s) (hlen : rest.length < n) (hf : ∀ v ∈ rest, cfg.falsy v = false) (hfs : cfg.falsy .sink = false)
    (hsink : Node.sink ∉ rest) (hlim : ∀ m, cfg.numStops = some m → s.stops + rest.length < m)
    (hst : ∀ pre u v post, s.path ++ rest ++ [.sink] = pre ++ u :: v :: post → s.path.length ≤ pre.length + 1 →
      SurelyAmongFive (MayFollow cfg.G cfg.cap cfg.duration (pre ++ [u])) (cfg.weight u) v) :
    ∃ rand s', cfg.loop .fwd rand n s = some s' ∧ Partial cfg .fwd s' ∧ s'.newNode = some .sink ∧
      s'.path = s.path ++ rest ++ [.sink] := by
  obtain ⟨xs, u, hp⟩ : ∃ xs u, s.path = xs ++ [u] := by
    rcases List.eq_nil_or_concat s.path with h0 | ⟨xs, u, h0⟩
    · exact absurd h0 h.ne
    · exact ⟨xs, u, by simpa using h0⟩
  have hlast : last .fwd s.path = u := by simp [last, hp]
  have hpool : ∀ v, SurelyAmongFive (MayFollow cfg.G cfg.cap cfg.duration (xs ++ [u])) (cfg.weight u) v →
      v ∈ cfg.pool .fwd s := by
    intro v hv
    rw [pool_eq, hlast]
    exact mem_of_five (candidates_nodup hG _ _) ((surely_congr (mem_candidates_fwd h hp)).2 hv)
  induction rest generalizing n s xs u with
  | nil =>
    obtain ⟨n, rfl⟩ : ∃ m, n = m + 1 := ⟨n - 1, by simp at hlen; omega⟩
    have hv : Node.sink ∈ cfg.pool .fwd s := hpool _ (hst xs u .sink [] (by simp [hp]) (by simp [hp]))
    obtain ⟨i, hi⟩ := loop_step hv hfs n (fun _ => 0)
    have hfin : cfg.finish .fwd .sink (cfg.push .fwd .sink s) = (cfg.push .fwd .sink s, false) := by
      simp [finish]
    rw [hfin] at hi
    exact ⟨_, _, hi, push_partial hG h hv, rfl, by simp [push]⟩
  | cons v rest ih =>
    obtain ⟨n, rfl⟩ : ∃ m, n = m + 1 := ⟨n - 1, by simp at hlen; omega⟩
    have hv : v ∈ cfg.pool .fwd s := hpool _ (hst xs u v (rest ++ [.sink]) (by simp [hp]) (by simp [hp]))
    have hvs : v ≠ .sink := fun hh => hsink (by simp [hh])
    have hP := push_partial hG h hv
    have hpath : (cfg.push .fwd v s).path = s.path ++ [v] := by simp [push]
    have hstops : (cfg.push .fwd v s).stops = s.stops + 1 := rfl
    have hlast' : last .fwd (cfg.push .fwd v s).path = v := by simp [last, hpath]
    have hp' : (cfg.push .fwd v s).path = s.path ++ [v] := hpath
    obtain ⟨rand, s', h1, h2, h3, h4⟩ := ih n (cfg.push .fwd v s) hP (by simp at hlen; omega)
      (fun x hx => hf x (by simp [hx])) (fun hh => hsink (by simp [hh]))
      (fun m hm => by have := hlim m hm; simp at this; omega)
      (fun pre a b post heq hle => hst pre a b post (by rw [← heq, hpath]; simp) (by rw [hpath] at hle; simp at hle; omega))
      s.path v hp' hlast' (fun x hx => by
        rw [pool_eq, hlast']
        exact mem_of_five (candidates_nodup hG _ _) ((surely_congr (mem_candidates_fwd hP hp')).2 hx))
    obtain ⟨i, hi⟩ := loop_step hv (hf v (by simp)) n rand
    have hfin : cfg.finish .fwd v (cfg.push .fwd v s) = (cfg.push .fwd v s, true) := by
      have : ¬ (some (cfg.push .fwd v s).stops = cfg.numStops ∧ v ≠ .sink) := by
        rintro ⟨hh, _⟩
        have := hlim _ hh.symm
        rw [hstops] at this
        simp at this
      simp only [finish, this, if_false]
      simp [hvs]
    rw [hfin] at hi
    refine ⟨_, s', hi.trans h1, h2, h3, ?_⟩
    rw [h4, hpath]
    simp

end GreedyPricing

/-! ## The properties -/

/-- **C71.** Every column added by the randomised greedy pricing stands for a path each of whose steps goes to one of the five
best nodes the path can be continued to: read from Source, or read backwards from Sink; only the last step of a route with as
many customers as allowed is not chosen. -/
theorem C71_choices {cfg : GreedyPricing} (hG : WellFormed cfg.G) (hd1 : cfg.G.demand .source = 0)
    (hd2 : cfg.G.demand .sink = 0) {keys : List Node} {rand : Nat → Nat → Nat} {fuel nRuns : Nat}
    {cols cols' : List Column} {more : Bool} (h : cfg.solve keys rand fuel nRuns cols = .ok (cols', more)) :
    ∃ new, cols' = cols ++ new ∧ ∀ c ∈ new, ∃ r, Encodes cfg.G c r ∧
      (StepsForward cfg.G cfg.weight cfg.cap cfg.duration cfg.numStops r ∨
        StepsBackward cfg.G cfg.weight cfg.cap cfg.duration r) := by
  obtain ⟨new, h1, _, h3⟩ := solve_columns h
  refine ⟨new, h1, ?_⟩
  intro c hc
  obtain ⟨hk, dir, rd, s, hrun, hacc, hn, he, hcost⟩ := h3 c hc
  obtain ⟨a, _, _, _⟩ := run_facts hG hd1 hd2 hrun hacc
  refine ⟨s.path, encodes_graph a.2 (path_length a) hn he hcost, ?_⟩
  have hdone : cfg.StepsDone dir s := by
    refine GreedyPricing.loop_steps hG fuel _ s (GreedyPricing.start_open hG hd1 hd2 dir) ?_ hrun hacc
    cases dir <;>
    · intro pre u v post heq
      have := congrArg List.length heq
      simp at this
      omega
  cases dir with
  | bwd =>
    right
    rcases hdone with hdone | ⟨hh, _⟩
    · exact hdone
    · cases hh
  | fwd =>
    left
    rcases hdone with hdone | ⟨_, hlim, h0, hlen, p, u, hp, hS⟩
    · exact fun pre u v post heq => Or.inr (hdone pre u v post heq)
    · intro pre a' b post heq
      have heq' : (p ++ [u]) ++ [.sink] = pre ++ a' :: b :: post := by rw [← heq, hp]; simp
      rcases GreedyPricing.split_snoc heq' with ⟨post', hh⟩ | ⟨_, rfl⟩
      · exact Or.inr (hS pre a' b post' hh)
      · left
        refine ⟨rfl, ?_⟩
        obtain ⟨⟨mid, hr, hm, _⟩, _⟩ := a
        have hst : Spec.stops s.path = mid := by
          rw [hr]
          apply stops_routeOf (G := cfg.G)
          intro v hv
          obtain ⟨⟨n, rfl⟩, hv⟩ := hm v hv
          exact mem_customers.2 ⟨hv, by simp, by simp⟩
        have hmid : mid.length = s.stops := by
          have := congrArg List.length hr
          simp [routeOf] at this
          omega
        refine ⟨by rw [hst, hlim, hmid], ?_⟩
        rw [hst]
        rintro rfl
        exact h0 (by simpa using hmid.symm)

/-- **C71**, the other direction: a route of negative reduced cost with fewer customers than allowed, each of whose steps goes
to a node that is surely among the five best, is found if the random choices happen to be the right ones. -/
theorem C71_reachable {cfg : GreedyPricing} (hG : WellFormed cfg.G) (hd1 : cfg.G.demand .source = 0)
    (hd2 : cfg.G.demand .sink = 0) {mid : List Node} (hr : IsSimpleRoute cfg.G (routeOf mid))
    (hlim : ∀ m, cfg.numStops = some m → mid.length < m) (hf : ∀ v, cfg.falsy v = false)
    (hneg : legSum cfg.weight (routeOf mid) < 0) {fuel : Nat} (hfuel : mid.length < fuel)
    (hst : ∀ pre u v post, routeOf mid = pre ++ u :: v :: post →
      SurelyAmongFive (MayFollow cfg.G cfg.cap cfg.duration (pre ++ [u])) (cfg.weight u) v) :
    ∃ rand : Nat → Nat → Nat, ∀ keys nRuns cols cols' more, 0 < nRuns → cfg.solve keys rand fuel nRuns cols = .ok (cols', more) →
      more = true ∧ ∃ c ∈ cols', c.vehicleType = cfg.vehicleType ∧ Encodes cfg.G c (routeOf mid) := by
  have hsink : Node.sink ∉ mid := by
    intro hh
    have := (List.nodup_cons.1 hr.2).2
    rw [List.nodup_append] at this
    exact this.2.2 _ hh _ (by simp) rfl
  obtain ⟨rand, s, hrun, hP, hnew, hpath⟩ := GreedyPricing.loop_follows hG mid fuel _
    (GreedyPricing.start_open hG hd1 hd2 .fwd).toPartial hfuel (fun v _ => hf v) (hf _) hsink
    (fun m hm => by simpa using hlim m hm) (fun pre u v post heq _ => hst pre u v post (by rw [← heq]; simp [routeOf]))
  have hpath : s.path = routeOf mid := by rw [hpath]; simp [routeOf]
  have hacc : cfg.accepted s = true := by
    simp [GreedyPricing.accepted, hnew, hf, hP.weight, hpath, hneg]
  refine ⟨fun _ => rand, ?_⟩
  intro keys nRuns cols cols' more hn h
  obtain ⟨n, rfl⟩ : ∃ n, nRuns = n + 1 := ⟨nRuns - 1, by omega⟩
  unfold GreedyPricing.solve at h
  rw [List.range_succ_eq_map, List.map_cons, List.cons_append, List.foldlM_cons] at h
  rw [py_bind_ok] at h
  obtain ⟨st, h1, h2⟩ := h
  have hrun : cfg.run .fwd rand fuel = some s := hrun
  unfold GreedyPricing.attempt at h1
  simp only [hrun, hacc, if_true] at h1
  cases hadd : cfg.addRoute keys cols s.path with
  | error e => rw [hadd] at h1; cases h1
  | ok cols1 =>
    rw [hadd] at h1
    simp only [Except.ok.injEq] at h1
    subst h1
    unfold GreedyPricing.addRoute at hadd
    simp only at hadd
    cases hcost : sumEdgeCosts cfg.G cfg.vehicleType (graphEdges (consecutive s.path)) with
    | error e => rw [hcost] at hadd; cases hadd
    | ok x =>
      simp only [hcost] at hadd
      split at hadd
      · cases hadd
      · simp only [Except.ok.injEq] at hadd
        subst hadd
        have key := foldlM_inv (P := fun st : List Column × Bool => st.2 = true ∧ ∃ c ∈ st.1,
          c.vehicleType = cfg.vehicleType ∧ Encodes cfg.G c (routeOf mid)) _ _ _ ?_ ?_ h2
        · exact key
        · refine ⟨rfl, _, List.mem_append_right _ (List.mem_singleton.2 rfl), rfl, ?_⟩
          exact encodes_graph hr.2 (path_length hr) (by rw [hpath]) (by rw [hpath]) (by rw [← hpath]; exact hcost)
        · rintro st ⟨dir, rd⟩ st' _ ⟨hm, c, hc, hk⟩ hatt
          unfold GreedyPricing.attempt at hatt
          split at hatt
          · simp only [Except.ok.injEq] at hatt
            subst hatt
            exact ⟨hm, c, hc, hk⟩
          · split at hatt
            · split at hatt
              · cases hatt
              · rename_i cols2 hadd2
                simp only [Except.ok.injEq] at hatt
                subst hatt
                refine ⟨rfl, c, ?_, hk⟩
                unfold GreedyPricing.addRoute at hadd2
                simp only at hadd2
                split at hadd2
                · cases hadd2
                · split at hadd2
                  · cases hadd2
                  · simp only [Except.ok.injEq] at hadd2
                    subst hadd2
                    exact List.mem_append_left _ hc
            · simp only [Except.ok.injEq] at hatt
              subst hatt
              exact ⟨hm, c, hc, hk⟩

/-! ## Examples -/

/-- Six customers, each on a route of its own; the way out costs more and the way back less the greater the number. -/
private def exStar : Net where
  nodes := [.source, .cust 1, .cust 2, .cust 3, .cust 4, .cust 5, .cust 6, .sink]
  succ := fun u => match u with
    | .source => [.cust 6, .cust 5, .cust 4, .cust 3, .cust 2, .cust 1]
    | .cust n => if n ∈ [1, 2, 3, 4, 5, 6] then [.sink] else []
    | .sink => []
  demand := fun v => if v = .source ∨ v = .sink then 0 else 1
  cost := fun _ _ => [1]

private def exStarWeight : Node → Node → ℚ
  | .source, .cust n => n
  | .cust n, .sink => -2 * n
  | _, _ => 0

private def exStarCfg : GreedyPricing where
  G := exStar
  weight := exStarWeight
  cap := some 1

private theorem exStar_wf : WellFormed exStar := by
  refine ⟨by decide, ?_, ?_, by decide, by decide, ?_, rfl⟩
  · intro u; simp only [exStar]; split <;> (try split) <;> simp
  · intro u v
    simp only [exStar]
    split
    · simp; tauto
    · split
      · rename_i n hn
        simp at hn ⊢
        intro hv
        exact ⟨hn, by simp [hv]⟩
      · simp
    · simp
  · intro u; simp only [exStar]; split <;> (try split) <;> simp

/-- The column of the route to customer `n`. -/
private def exStarColumn (i n : Nat) : Column where
  name := .num i
  nodes := [.source, .cust n, .sink]
  edges := [(.source, .cust n), (.cust n, .sink)]
  cost := 2
  vehicleType := 0

/-- A run meeting the hypotheses of C71: the forward search takes the cheapest way out, the backward search the cheapest way
back. -/
example : exStarCfg.solve [.cust 1, .cust 2, .cust 3, .cust 4, .cust 5, .cust 6] (fun _ _ => 0) 9 1 [] =
    .ok ([exStarColumn 1 1, exStarColumn 2 6], true) := by decide +kernel

/-- The forward search cannot find the route to customer 6: five customers are better. -/
example : ¬ StepsForward exStar exStarWeight (some 1) none none [.source, .cust 6, .sink] := by
  intro h
  rcases h [] .source (.cust 6) [.sink] rfl with ⟨hh, _⟩ | ⟨_, hh⟩
  · cases hh
  · refine hh ⟨[.cust 1, .cust 2, .cust 3, .cust 4, .cust 5], by decide, rfl, ?_⟩
    intro x hx
    have hx' : x ∈ ([.cust 1, .cust 2, .cust 3, .cust 4, .cust 5] : List Node) := hx
    simp only [List.mem_cons, List.not_mem_nil, or_false] at hx'
    refine ⟨⟨⟨.source, rfl, ?_, ?_⟩, ?_, ?_, ?_⟩, ?_⟩
    · rcases hx' with rfl | rfl | rfl | rfl | rfl <;> decide
    · rcases hx' with rfl | rfl | rfl | rfl | rfl <;> simp
    · rcases hx' with rfl | rfl | rfl | rfl | rfl <;> simp
    · intro d hd _
      cases hd
      rcases hx' with rfl | rfl | rfl | rfl | rfl <;> decide +kernel
    · intro d hd; cases hd
    · rcases hx' with rfl | rfl | rfl | rfl | rfl <;> decide +kernel

/-- The hypotheses of `C71_reachable` are satisfiable: the route to customer 5 is found for suitable random choices, although
it is the fifth best. -/
example : ∃ rand : Nat → Nat → Nat, ∀ keys nRuns cols cols' more, 0 < nRuns →
    exStarCfg.solve keys rand 9 nRuns cols = .ok (cols', more) →
      more = true ∧ ∃ c ∈ cols', c.vehicleType = 0 ∧ Encodes exStar c (routeOf [.cust 5]) := by
  refine C71_reachable (cfg := exStarCfg) exStar_wf rfl rfl ⟨⟨[.cust 5], rfl, ?_, ?_⟩, by decide⟩ (by intro m hm; cases hm)
    (fun _ => rfl) (by decide +kernel) (by decide) ?_
  · intro v hv
    simp at hv
    subst hv
    exact ⟨⟨5, rfl⟩, by decide⟩
  · exact ⟨by decide, by decide, trivial⟩
  · intro pre u v post heq
    have hlen := congrArg List.length heq
    simp [routeOf] at hlen
    cases pre with
    | nil =>
      simp [routeOf] at heq
      obtain ⟨rfl, rfl, rfl⟩ := heq
      refine ⟨⟨⟨.source, rfl, by decide, by simp⟩, by simp, ?_, ?_⟩, ?_⟩
      · intro d hd _; cases hd; decide +kernel
      · intro d hd; cases hd
      · rintro ⟨l, hnd, h5, hv, hl⟩
        have hsub : l ⊆ [.cust 4, .cust 3, .cust 2, .cust 1] := by
          intro x hx
          obtain ⟨⟨⟨u, hu, hmem, _⟩, _⟩, hle⟩ := hl x hx
          simp at hu
          subst hu
          have hmem : x ∈ ([.cust 6, .cust 5, .cust 4, .cust 3, .cust 2, .cust 1] : List Node) := hmem
          simp only [List.mem_cons, List.not_mem_nil, or_false] at hmem ⊢
          rcases hmem with rfl | rfl | h
          · exact absurd hle (by decide +kernel)
          · exact absurd hx hv
          · exact h
        have := (List.subperm_of_subset hnd hsub).length_le
        simp at this
        omega
    | cons a pre =>
      have hpre : pre = [] := List.length_eq_zero_iff.1 (by simp at hlen; omega)
      subst hpre
      simp [routeOf] at heq
      obtain ⟨rfl, rfl, rfl, rfl⟩ := heq
      refine ⟨⟨⟨.cust 5, rfl, by decide, by simp⟩, by simp, ?_, ?_⟩, ?_⟩
      · intro d hd _; cases hd; decide +kernel
      · intro d hd; cases hd
      · rintro ⟨l, hnd, h5, hv, hl⟩
        have hsub : l ⊆ [] := by
          intro x hx
          obtain ⟨⟨⟨u, hu, hmem, _⟩, _⟩, _⟩ := hl x hx
          simp at hu
          subst hu
          have hmem : x ∈ ([.sink] : List Node) := hmem
          simp at hmem
          subst hmem
          exact absurd hx hv
        rw [List.subset_nil.1 hsub] at h5
        cases h5

end Vrpy
