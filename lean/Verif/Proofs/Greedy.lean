import Verif.Model.Greedy
import Verif.Proofs.ClarkeWright

/-!
# Invariants of the greedy heuristic
-/

namespace Vrpy

open Spec

/-- Customer `v` may be appended after `u` according to the limits. -/
def GreedyFits (G : Net) (cfg : GreedyConfig) (load time : ℚ) (u v : Node) : Prop :=
  (∀ c, active cfg.cap = some c → load + G.demand v ≤ c) ∧
  (∀ d, active cfg.duration = some d → time + G.service v + G.time u v + G.time v .sink ≤ d)

theorem greedyConstraintsMet_ok {G : Net} (hD : DepotConnected G) (hG : WellFormed G) (cfg : GreedyConfig)
    (s : GreedyState) (p : List Node) {u v : Node} (hv : v ∈ G.succ u) :
    ∃ b, greedyConstraintsMet G cfg s p u v = .ok b ∧
      (v ∈ G.customers → (b = true ↔ v ∉ p ∧ GreedyFits G cfg s.load s.time u v)) := by
  unfold greedyConstraintsMet
  by_cases h1 : v ∈ p ∨ (u = .source ∧ v = .sink)
  · refine ⟨false, by simp [h1], ?_⟩
    intro hc
    have := (mem_customers.1 hc).2.2
    simp only [this, and_false, or_false] at h1
    simp [h1]
  · rw [if_neg h1]
    push Not at h1
    by_cases h2 : greedyCapacityOk G cfg s v = true
    · simp only [h2, Bool.not_true, Bool.false_eq_true, if_false]
      have hcap : ∀ c, active cfg.cap = some c → s.load + G.demand v ≤ c := by
        intro c hc
        simpa [greedyCapacityOk, hc] using h2
      unfold greedyDurationOk
      cases hd : active cfg.duration with
      | none =>
        refine ⟨true, rfl, fun _ => ?_⟩
        simp [h1.1, GreedyFits, hd]
        exact hcap
      | some d =>
        by_cases hs : v = .sink
        · subst hs
          simp only [ne_eq, not_true_eq_false, if_false, edgeTime_ok hv]
          exact ⟨_, rfl, fun hc => absurd rfl (mem_customers.1 hc).2.2⟩
        · have hc : v ∈ G.customers := by
            refine mem_customers.2 ⟨(hG.edge_mem _ _ hv).2, ?_, hs⟩
            rintro rfl
            exact hG.no_into_source _ hv
          simp only [ne_eq, hs, not_false_eq_true, if_true, edgeTime_ok hv, edgeTime_ok (depot_edges hD hc).2]
          refine ⟨_, rfl, fun _ => ?_⟩
          simp only [decide_eq_true_eq, GreedyFits, hd, Option.some.injEq, forall_eq']
          constructor
          · intro h
            exact ⟨h1.1, hcap, h⟩
          · intro h
            exact h.2.2
    · refine ⟨false, by simp [h2], fun _ => ?_⟩
      simp only [Bool.false_eq_true, false_iff]
      rintro ⟨_, hf, _⟩
      apply h2
      unfold greedyCapacityOk
      cases hc : active cfg.cap with
      | none => rfl
      | some c => simpa using hf c hc

theorem greedyCandidates_ok {G : Net} (hD : DepotConnected G) (hG : WellFormed G) (hK : CostsFor G 1)
    (cfg : GreedyConfig) (s : GreedyState) (p : List Node) (u : Node)
    (hun : ∀ v ∈ s.unprocessed, v ∈ G.customers) :
    ∃ cands, greedyCandidates G cfg s p u = .ok cands ∧
      ∀ v c, (v, c) ∈ cands ↔
        v ∈ G.succ u ∧ v ∈ s.unprocessed ∧ v ∉ p ∧ GreedyFits G cfg s.load s.time u v ∧
          c = (G.cost u v).getD 0 0 := by
  unfold greedyCandidates
  suffices H : ∀ (l : List Node) (acc : List (Node × ℚ)), (∀ v ∈ l, v ∈ G.succ u) →
      ∃ cands, l.foldlM (fun acc v =>
        match greedyConstraintsMet G cfg s p u v with
        | .error e => .error e
        | .ok met =>
          if met ∧ v ∈ s.unprocessed then
            match G.edgeCost u v 0 with
            | .error e => .error e
            | .ok c => .ok (acc ++ [(v, c)])
          else .ok acc) acc = (.ok cands : Py _) ∧
        ∀ v c, (v, c) ∈ cands ↔ (v, c) ∈ acc ∨
          (v ∈ l ∧ v ∈ s.unprocessed ∧ v ∉ p ∧ GreedyFits G cfg s.load s.time u v ∧
            c = (G.cost u v).getD 0 0) by
    obtain ⟨cands, h1, h2⟩ := H (G.succ u) [] (fun _ h => h)
    exact ⟨cands, h1, fun v c => by simpa using h2 v c⟩
  intro l
  induction l with
  | nil =>
    intro acc _
    exact ⟨acc, by simp [pure, Except.pure], by simp⟩
  | cons a l ih =>
    intro acc hl
    obtain ⟨b, hb, hbi⟩ := greedyConstraintsMet_ok hD hG cfg s p (hl a (by simp))
    rw [List.foldlM_cons]
    simp only [hb]
    by_cases hcond : b = true ∧ a ∈ s.unprocessed
    · rw [if_pos hcond, edgeCost_ok hK (hl a (by simp)) (by omega)]
      obtain ⟨cands, h1, h2⟩ := ih (acc ++ [(a, (G.cost u a).getD 0 0)]) (fun v hv => hl v (by simp [hv]))
      refine ⟨cands, h1, fun v c => ?_⟩
      rw [h2]
      have := (hbi (hun a hcond.2)).1 hcond.1
      simp only [List.mem_append, List.mem_singleton, List.mem_cons, Prod.mk.injEq, List.not_mem_nil, or_false]
      constructor
      · rintro ((h | ⟨rfl, rfl⟩) | h)
        · exact Or.inl h
        · exact Or.inr ⟨Or.inl rfl, hcond.2, this.1, this.2, rfl⟩
        · exact Or.inr ⟨Or.inr h.1, h.2⟩
      · rintro (h | ⟨rfl | h, h'⟩)
        · exact Or.inl (Or.inl h)
        · exact Or.inl (Or.inr ⟨rfl, h'.2.2.2⟩)
        · exact Or.inr ⟨h, h'⟩
    · rw [if_neg hcond]
      obtain ⟨cands, h1, h2⟩ := ih acc (fun v hv => hl v (by simp [hv]))
      refine ⟨cands, h1, fun v c => ?_⟩
      rw [h2]
      simp only [List.mem_cons]
      constructor
      · rintro (h | h)
        · exact Or.inl h
        · exact Or.inr ⟨Or.inr h.1, h.2⟩
      · rintro (h | ⟨rfl | h, h'⟩)
        · exact Or.inl h
        · exact absurd ⟨(hbi (hun v h'.1)).2 ⟨h'.2.1, h'.2.2.1⟩, h'.1⟩ hcond
        · exact Or.inr ⟨h, h'⟩

/-- What `_get_next_node` picks: the cheapest unprocessed successor that fits, or Sink when there is none. -/
theorem greedyNext_ok {G : Net} (hD : DepotConnected G) (hG : WellFormed G) (hK : CostsFor G 1)
    (cfg : GreedyConfig) (s : GreedyState) (p : List Node) (u : Node) (hp : s.path = some p)
    (hu : p.getLast? = some u) (hun : ∀ v ∈ s.unprocessed, v ∈ G.customers) :
    ∃ w, greedyNext G cfg s = .ok { s with newNode := w } ∧
      ((w = .sink ∧ ∀ v ∈ G.succ u, v ∈ s.unprocessed → v ∉ p → ¬ GreedyFits G cfg s.load s.time u v) ∨
       (w ∈ G.succ u ∧ w ∈ s.unprocessed ∧ w ∉ p ∧ GreedyFits G cfg s.load s.time u w ∧
        ∀ v ∈ G.succ u, v ∈ s.unprocessed → v ∉ p → GreedyFits G cfg s.load s.time u v →
          (G.cost u w).getD 0 0 ≤ (G.cost u v).getD 0 0)) := by
  obtain ⟨cands, h1, h2⟩ := greedyCandidates_ok hD hG hK cfg s p u hun
  unfold greedyNext
  simp only [hp, hu, h1]
  have hperm := List.perm_insertionSort (fun a b : Node × ℚ => a.2 ≤ b.2) cands
  have hsort := List.pairwise_insertionSort (fun a b : Node × ℚ => a.2 ≤ b.2) cands
  cases hs : cands.insertionSort (fun a b => a.2 ≤ b.2) with
  | nil =>
    rw [hs] at hperm
    have hnil := hperm.symm.eq_nil
    refine ⟨.sink, rfl, Or.inl ⟨rfl, ?_⟩⟩
    intro v hv1 hv2 hv3 hf
    have := (h2 v _).2 ⟨hv1, hv2, hv3, hf, rfl⟩
    rw [hnil] at this
    simp at this
  | cons x xs =>
    obtain ⟨w, c⟩ := x
    rw [hs] at hperm hsort
    refine ⟨w, rfl, Or.inr ?_⟩
    have hw := (h2 w c).1 (hperm.subset (by simp))
    refine ⟨hw.1, hw.2.1, hw.2.2.1, hw.2.2.2.1, ?_⟩
    intro v hv1 hv2 hv3 hf
    have hm := hperm.symm.subset ((h2 v _).2 ⟨hv1, hv2, hv3, hf, rfl⟩)
    rw [← hw.2.2.2.2]
    rcases List.mem_cons.1 hm with h | h
    · rw [Prod.mk.injEq] at h
      exact le_of_eq h.2.symm
    · exact (List.pairwise_cons.1 hsort).1 _ h

/-- The state inside `_run_forward` after visiting `mid`, started from `b`. -/
structure GreedyInv (G : Net) (cfg : GreedyConfig) (b s : GreedyState) (mid : List Node) : Prop where
  path : s.path = some (.source :: mid)
  routes : s.routes = b.routes
  perm : (s.unprocessed ++ mid).Perm b.unprocessed
  load : s.load = (mid.map G.demand).sum
  time : s.time = legSum G.time (.source :: mid) + (mid.map G.service).sum
  stops : s.stops = mid.length
  value : s.value = b.value + legSum (fun u v => (G.cost u v).getD 0 0) (.source :: mid)
  along : Along (fun u v => v ∈ G.succ u) (.source :: mid)
  cap : ∀ c, active cfg.cap = some c → mid ≠ [] → s.load ≤ c
  dur : ∀ d, active cfg.duration = some d → ∀ u, (Node.source :: mid).getLast? = some u → mid ≠ [] →
    s.time + G.time u .sink ≤ d
  lt : ∀ m, cfg.numStops = some m → m ≠ 0 → mid.length < m

/-- What `_run_forward` produces from `b`: the route through `mid`. -/
structure GreedyDone (G : Net) (cfg : GreedyConfig) (b s : GreedyState) (mid : List Node) : Prop where
  path : s.path = some (routeOf mid)
  routes : s.routes = b.routes
  perm : (s.unprocessed ++ mid).Perm b.unprocessed
  value : s.value = b.value + Spec.cost G 0 (routeOf mid)
  along : Along (fun u v => v ∈ G.succ u) (routeOf mid)
  cap : ∀ c, active cfg.cap = some c → mid ≠ [] → (mid.map G.demand).sum ≤ c
  dur : ∀ d, active cfg.duration = some d → mid ≠ [] →
    legSum G.time (routeOf mid) + (mid.map G.service).sum ≤ d
  le : ∀ m, cfg.numStops = some m → m ≠ 0 → mid.length ≤ m
  empty : mid = [] → ∀ v ∈ b.unprocessed, ¬ GreedyFits G cfg 0 0 .source v

theorem along_append_one (E : Node → Node → Prop) (p : List Node) (u v : Node) (hp : Along E p)
    (hu : p.getLast? = some u) (h : E u v) : Along E (p ++ [v]) := by
  rw [along_iff] at hp ⊢
  obtain ⟨q, rfl⟩ := List.getLast?_eq_some_iff.1 hu
  intro a b hab
  rw [List.append_assoc, List.singleton_append, consecutive_append_two, List.mem_append] at hab
  rcases hab with hab | hab
  · exact hp a b hab
  · simp only [List.mem_singleton, Prod.mk.injEq] at hab
    rw [hab.1, hab.2]
    exact h

theorem legSum_append_one (w : Node → Node → ℚ) (p : List Node) (u v : Node) (hu : p.getLast? = some u) :
    legSum w (p ++ [v]) = legSum w p + w u v := by
  obtain ⟨q, rfl⟩ := List.getLast?_eq_some_iff.1 hu
  rw [List.append_assoc, List.singleton_append, legSum_append_two]

theorem legSum_routeOf (w : Node → Node → ℚ) (mid : List Node) (u : Node)
    (hu : (Node.source :: mid).getLast? = some u) :
    legSum w (routeOf mid) = legSum w (.source :: mid) + w u .sink := by
  rw [routeOf, ← List.cons_append, legSum_append_one _ _ _ _ hu]

theorem greedyForward_ok {G : Net} (hD : DepotConnected G) (hG : WellFormed G) (hK : CostsFor G 1)
    (hss : Node.sink ∈ G.succ .source) (cfg : GreedyConfig) (b : GreedyState) (hb : b.unprocessed.Nodup)
    (hbc : ∀ v ∈ b.unprocessed, v ∈ G.customers) :
    ∀ (fuel : Nat) (s : GreedyState) (mid : List Node), GreedyInv G cfg b s mid → s.unprocessed.length < fuel →
      ∃ s' mid', greedyForward G cfg fuel s = .ok (some s') ∧ GreedyDone G cfg b s' mid' := by
  intro fuel
  induction fuel with
  | zero => intro s mid _ h; omega
  | succ fuel ih =>
    intro s mid inv hf
    have hun : ∀ v ∈ s.unprocessed, v ∈ G.customers := fun v hv => hbc v (inv.perm.subset (by simp [hv]))
    have hmid : ∀ v ∈ mid, v ∈ G.customers := fun v hv => hbc v (inv.perm.subset (by simp [hv]))
    have hdisj : ∀ v ∈ s.unprocessed, v ∉ mid := by
      have := (inv.perm.nodup_iff.2 hb)
      rw [List.nodup_append] at this
      intro v hv hm
      exact this.2.2 v hv v hm rfl
    obtain ⟨u, hu⟩ : ∃ u, (Node.source :: mid).getLast? = some u :=
      ⟨_, List.getLast?_eq_some_getLast (by simp)⟩
    have hu' : u = .source ∧ mid = [] ∨ u ∈ mid ∧ mid ≠ [] := by
      cases mid with
      | nil => left; simpa using hu.symm
      | cons a m =>
        right
        rw [List.getLast?_cons_cons] at hu
        exact ⟨List.mem_of_getLast? hu, by simp⟩
    obtain ⟨w, hw, hw'⟩ := greedyNext_ok hD hG hK cfg s _ u inv.path hu hun
    rw [greedyForward, hw]
    simp only
    unfold greedyUpdate
    simp only [inv.path, hu]
    have husink : Node.sink ∈ G.succ u := by
      rcases hu' with ⟨rfl, _⟩ | ⟨h, _⟩
      · exact hss
      · exact (depot_edges hD (hmid u h)).2
    rcases hw' with ⟨rfl, hno⟩ | ⟨h1, h2, h3, h4, _⟩
    · -- nothing fits: go to Sink
      simp only [Node.isDepot, Bool.true_eq_false, false_and, if_false, edgeCost_ok hK husink (Nat.zero_lt_one),
        edgeTime_ok husink, ne_eq, not_true_eq_false, and_false, if_true]
      refine ⟨_, mid, rfl, ?_, ?_, ?_, ?_, ?_, ?_, ?_, ?_, ?_⟩
      · simp [routeOf]
      · exact inv.routes
      · exact inv.perm
      · show s.value + _ = _
        rw [inv.value, Spec.cost, routeOf, ← List.cons_append, legSum_append_one _ _ _ _ hu]
        ring
      · rw [routeOf, ← List.cons_append]
        exact along_append_one _ _ _ _ inv.along hu husink
      · intro c hc hne
        rw [← inv.load]
        exact inv.cap c hc hne
      · intro d hd hne
        have := inv.dur d hd u hu hne
        rw [inv.time] at this
        rw [routeOf, ← List.cons_append, legSum_append_one _ _ _ _ hu]
        linarith
      · intro m hm hm0
        exact (inv.lt m hm hm0).le
      · rintro rfl v hv
        have hus : u = .source := by simpa using hu.symm
        have hv' : v ∈ s.unprocessed := by
          have := inv.perm.symm.subset hv
          simpa using this
        have := hno v (hus ▸ (depot_edges hD (hun v hv')).1) hv' (by
          have := (mem_customers.1 (hun v hv')).2.1
          simpa using this)
        rw [hus] at this
        have hl := inv.load
        have ht := inv.time
        simp only [List.map_nil, List.sum_nil, legSum, add_zero] at hl ht
        rwa [hl, ht] at this
    · -- append customer `w`
      have hwc := hun w h2
      have hwd : w.isDepot = false := by
        have := mem_customers.1 hwc
        cases w <;> simp_all [Node.isDepot]
      have hws : w ≠ .sink := (mem_customers.1 hwc).2.2
      simp only [hwd, h2, not_true_eq_false, and_false, if_false, edgeCost_ok hK h1 (Nat.zero_lt_one),
        edgeTime_ok h1, hws, ne_eq, not_false_eq_true, and_true, Bool.false_eq_true]
      have hperm : ((s.unprocessed.erase w) ++ (mid ++ [w])).Perm b.unprocessed := by
        refine List.Perm.trans ?_ inv.perm
        rw [← List.append_assoc]
        refine (List.perm_append_singleton w _).trans ?_
        rw [← List.cons_append]
        exact (List.perm_cons_erase h2).symm.append_right _
      have hload : s.load + G.demand w = ((mid ++ [w]).map G.demand).sum := by
        rw [inv.load]; simp
      have htime : s.time + (G.time u w + G.service w) =
          legSum G.time (Node.source :: (mid ++ [w])) + ((mid ++ [w]).map G.service).sum := by
        rw [inv.time, ← List.cons_append, legSum_append_one _ _ _ _ hu]
        simp only [List.map_append, List.sum_append, List.map_cons, List.map_nil, List.sum_cons, List.sum_nil]
        ring
      have hvalue : s.value + (G.cost u w).getD 0 0 =
          b.value + legSum (fun u v => (G.cost u v).getD 0 0) (Node.source :: (mid ++ [w])) := by
        rw [inv.value, ← List.cons_append, legSum_append_one _ _ _ _ hu]
        ring
      have halong : Along (fun u v => v ∈ G.succ u) (Node.source :: (mid ++ [w])) := by
        rw [← List.cons_append]
        exact along_append_one _ _ _ _ inv.along hu h1
      have hlast : (Node.source :: (mid ++ [w])).getLast? = some w := by
        rw [← List.cons_append, List.getLast?_append]; simp
      have hcap := h4.1
      have hdur := h4.2
      by_cases hstop : cfg.numStops = some (s.stops + 1)
      · have hpre : w ∈ G.preds .sink := by
          simp only [Net.preds, List.mem_filter, Net.hasEdge, decide_eq_true_eq]
          exact ⟨(mem_customers.1 hwc).1, (depot_edges hD hwc).2⟩
        simp only [hstop, if_true, hpre, edgeCost_ok hK (depot_edges hD hwc).2 (Nat.zero_lt_one)]
        refine ⟨_, mid ++ [w], rfl, ?_, inv.routes, hperm, ?_, ?_, ?_, ?_, ?_, by simp⟩
        · simp [routeOf]
        · show s.value + _ + _ = _
          rw [hvalue, Spec.cost, legSum_routeOf _ _ _ hlast]
          ring
        · rw [routeOf, ← List.cons_append]
          exact along_append_one _ _ _ _ halong hlast (depot_edges hD hwc).2
        · intro c hc _
          rw [← hload]
          exact hcap c hc
        · intro d hd _
          have := hdur d hd
          rw [legSum_routeOf _ _ _ hlast]
          linarith
        · intro m hm hm0
          rw [hstop] at hm
          cases hm
          simp [inv.stops]
      · simp only [hstop, if_false, hws]
        refine ih _ (mid ++ [w]) ⟨?_, inv.routes, hperm, hload, htime, ?_, hvalue, halong, ?_, ?_, ?_⟩ ?_
        · simp
        · simp [inv.stops]
        · intro c hc _
          exact hcap c hc
        · intro d hd u' hu' _
          rw [hlast] at hu'
          cases hu'
          have := hdur d hd
          show s.time + (G.time u w + G.service w) + _ ≤ d
          linarith
        · intro m hm hm0
          have := inv.lt m hm hm0
          have h' : m ≠ s.stops + 1 := fun h => hstop (h ▸ hm)
          rw [inv.stops] at h'
          simp
          omega
        · show (s.unprocessed.erase w).length < fuel
          rw [List.length_erase_of_mem h2]
          have := List.length_pos_of_mem h2
          omega

/-- State between routes: the routes found are `Ls`, the customers they visit and the unprocessed ones are all. -/
structure GreedyOuter (G : Net) (cfg : GreedyConfig) (s : GreedyState) (Ls : List (List Node)) : Prop where
  routes : s.routes = Ls.map routeOf
  perm : (s.unprocessed ++ Ls.flatten).Perm G.customers
  value : s.value = (Ls.map (fun L => Spec.cost G 0 (routeOf L))).sum
  along : ∀ L ∈ Ls, Along (fun u v => v ∈ G.succ u) (routeOf L)
  cap : ∀ L ∈ Ls, ∀ c, active cfg.cap = some c → L ≠ [] → (L.map G.demand).sum ≤ c
  dur : ∀ L ∈ Ls, ∀ d, active cfg.duration = some d → L ≠ [] →
    legSum G.time (routeOf L) + (L.map G.service).sum ≤ d
  le : ∀ L ∈ Ls, ∀ m, cfg.numStops = some m → m ≠ 0 → L.length ≤ m

theorem greedyLoop_ok {G : Net} (hD : DepotConnected G) (hG : WellFormed G) (hK : CostsFor G 1)
    (hss : Node.sink ∈ G.succ .source) (cfg : GreedyConfig) (fwd : Nat) (hfwd : G.customers.length < fwd) :
    ∀ (fuel : Nat) (s : GreedyState) (Ls : List (List Node)), GreedyOuter G cfg s Ls → (∀ L ∈ Ls, L ≠ []) →
      s.unprocessed.length < fuel →
      ∃ s' Ls', greedyLoop G cfg fwd fuel s = .ok (some s') ∧ GreedyOuter G cfg s' Ls' ∧
        ((s'.unprocessed = [] ∧ ∀ L ∈ Ls', L ≠ []) ∨
         (∃ Ls0, Ls' = Ls0 ++ [[]] ∧ (∀ L ∈ Ls0, L ≠ []) ∧ s'.unprocessed ≠ [] ∧
          ∀ v ∈ s'.unprocessed, ¬ GreedyFits G cfg 0 0 .source v)) := by
  intro fuel
  induction fuel with
  | zero => intro s Ls _ _ h; omega
  | succ fuel ih =>
    intro s Ls inv hne hf
    rw [greedyLoop]
    by_cases hu : s.unprocessed = []
    · rw [if_pos hu]
      exact ⟨s, Ls, rfl, inv, Or.inl ⟨hu, hne⟩⟩
    · rw [if_neg hu]
      have hnd : (s.unprocessed ++ Ls.flatten).Nodup :=
        inv.perm.nodup_iff.2 (hG.nodes_nodup.filter _)
      have hund : s.unprocessed.Nodup := (List.nodup_append.1 hnd).1
      have hbc : ∀ v ∈ s.unprocessed, v ∈ G.customers := fun v hv => inv.perm.subset (by simp [hv])
      have hlen : s.unprocessed.length < fwd := by
        have := inv.perm.length_eq
        simp only [List.length_append] at this
        omega
      obtain ⟨s1, mid, h1, h2⟩ := greedyForward_ok hD hG hK hss cfg s hund hbc fwd
        { s with load := 0, stops := 0, time := 0, path := some [.source] } []
        ⟨rfl, rfl, by simp, by simp, by simp [legSum], rfl, by simp [legSum], by simp [Along], by simp, by simp,
          by intro m _ h; simp; omega⟩ hlen
      rw [h1]
      simp only
      have hst : greedyStore s1 = { s1 with routes := s1.routes ++ [routeOf mid] } := by
        simp [greedyStore, h2.path]
      have hout : GreedyOuter G cfg (greedyStore s1) (Ls ++ [mid]) := by
        rw [hst]
        refine ⟨?_, ?_, ?_, ?_, ?_, ?_, ?_⟩
        · show s1.routes ++ _ = _
          rw [h2.routes, inv.routes]; simp
        · show (s1.unprocessed ++ _).Perm _
          refine List.Perm.trans ?_ inv.perm
          rw [List.flatten_append]
          simp only [List.flatten_cons, List.flatten_nil, List.append_nil]
          refine ((List.perm_append_comm (l₁ := Ls.flatten)).append_left _).trans ?_
          rw [← List.append_assoc]
          exact h2.perm.append_right _
        · show s1.value = _
          rw [h2.value, inv.value]; simp
        all_goals
          intro L hL
          rcases List.mem_append.1 hL with hL | hL
        · exact inv.along L hL
        · rw [List.mem_singleton.1 hL]; exact h2.along
        · exact inv.cap L hL
        · rw [List.mem_singleton.1 hL]; exact h2.cap
        · exact inv.dur L hL
        · rw [List.mem_singleton.1 hL]; exact h2.dur
        · exact inv.le L hL
        · rw [List.mem_singleton.1 hL]; exact h2.le
      have hpath : (greedyStore s1).path = some (routeOf mid) := by rw [hst]; exact h2.path
      have hunp : (greedyStore s1).unprocessed = s1.unprocessed := by rw [hst]
      by_cases hm : mid = []
      · subst hm
        rw [if_pos (by rw [hpath]; rfl)]
        have hp := h2.perm
        simp only [List.append_nil] at hp
        refine ⟨_, Ls ++ [[]], rfl, hout, Or.inr ⟨Ls, rfl, hne, ?_, ?_⟩⟩
        · rw [hunp]
          intro h
          rw [h] at hp
          exact hu hp.symm.eq_nil
        · rw [hunp]
          intro v hv
          exact h2.empty rfl v (hp.subset hv)
      · rw [if_neg (by
          rw [hpath]
          cases mid with
          | nil => exact absurd rfl hm
          | cons a m => cases m <;> simp [routeOf])]
        refine ih _ (Ls ++ [mid]) hout ?_ ?_
        · intro L hL
          rcases List.mem_append.1 hL with hL | hL
          · exact hne L hL
          · rw [List.mem_singleton.1 hL]; exact hm
        · rw [hunp]
          have := h2.perm.length_eq
          simp only [List.length_append] at this
          have : 0 < mid.length := List.length_pos_of_ne_nil hm
          omega

end Vrpy
