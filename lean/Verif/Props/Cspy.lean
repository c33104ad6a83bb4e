import Verif.Proofs.Cspy
import Verif.Proofs.Prune
import Mathlib.Data.List.Infix

/-!
# C19-C22: pricing with cspy
-/

namespace Vrpy

open Spec Cspy

/-- The rule by which cspy accepts a path: with a custom resource function the search runs forward from Source and every
partial path must be within the limits; otherwise the resources of the whole path must be. -/
def Spec.WithinLimits (q : Cspy) (m : Res) (path : List Node) : Prop :=
  if q.custom then ∀ p, p ≠ [] → p <+: path → m.within (q.consumed p) else m.within (q.consumed path)

/-- What cspy promises: a path from Source to Sink within the limits, and its weight; without repeated nodes if asked for.
It does not promise the best path. -/
def Spec.CspySound (q : Cspy) (oracle : Cspy.Oracle) : Prop :=
  ∀ m e c path, oracle m e = some (c, path) →
    path.head? = some .source ∧ path.getLast? = some .sink ∧ Along (fun u v => v ∈ q.G.succ u) path ∧
      c = legSum q.weight path ∧ (e = true → path.Nodup) ∧ WithinLimits q m path

theorem withinLimits_prefixes {q : Cspy} {m : Res} {i : Node} {rest : List Node} (hc : q.custom = true) :
    WithinLimits q m (i :: rest) ↔ ∀ p, p <+: rest → m.within (q.consume {} i p) := by
  unfold WithinLimits
  rw [if_pos hc]
  constructor
  · intro h p hp
    exact h (i :: p) (by simp) (by simpa using hp)
  · intro h p hne hp
    cases p with
    | nil => exact absurd rfl hne
    | cons x p =>
      rw [List.cons_prefix_cons] at hp
      obtain ⟨rfl, hp⟩ := hp
      exact h p hp

theorem withinLimits_whole {q : Cspy} {m : Res} {i : Node} {rest : List Node} (h : WithinLimits q m (i :: rest)) :
    m.within (q.consume {} i rest) := by
  by_cases hc : q.custom = true
  · exact (withinLimits_prefixes hc).1 h rest (List.prefix_refl _)
  · unfold WithinLimits at h
    rw [if_neg hc] at h
    exact h

/-- A walk from Source to Sink is a route. -/
theorem route_of_walk {G : Net} (hG : WellFormed G) {path : List Node} (h1 : path.head? = some .source)
    (h2 : path.getLast? = some .sink) (h3 : Along (fun u v => v ∈ G.succ u) path) : IsRoute G path := by
  cases path with
  | nil => cases h1
  | cons a rest =>
    simp only [List.head?_cons, Option.some.injEq] at h1
    subst h1
    rcases List.eq_nil_or_concat' rest with rfl | ⟨mid, z, rfl⟩
    · simp at h2
    · have hz : z = .sink := by
        rw [← List.cons_append, List.getLast?_concat] at h2
        exact Option.some.inj h2
      subst hz
      have hal := (along_iff _ _).1 h3
      refine ⟨mid, rfl, ?_, h3⟩
      intro v hv
      obtain ⟨u, hu⟩ := pred_of_mem (mid ++ [Node.sink]) .source (List.mem_append_left _ hv)
      have huv := hal u v hu
      have hmem := (hG.edge_mem u v huv).2
      refine ⟨?_, hmem⟩
      cases v with
      | cust n => exact ⟨n, rfl⟩
      | source => exact absurd huv (hG.no_into_source u)
      | sink =>
        exfalso
        obtain ⟨a, b, hab⟩ := List.append_of_mem hv
        have hleg : ∃ w, (Node.sink, w) ∈ consecutive (Node.source :: (mid ++ [Node.sink])) := by
          have e : Node.source :: (mid ++ [Node.sink]) = (Node.source :: a) ++ Node.sink :: (b ++ [Node.sink]) := by
            rw [hab]; simp
          rw [e, consecutive_append]
          cases b with
          | nil => exact ⟨.sink, by simp⟩
          | cons x b => exact ⟨x, by simp⟩
        obtain ⟨w, hw⟩ := hleg
        have := hal _ _ hw
        rw [hG.no_out_of_sink] at this
        cases this

/-! ## C19 -/

/-- **C19**, first half: with a custom resource function, the time resource after each stop is the arrival time there,
for a vehicle that starts at time 0. -/
theorem C19_arrival_times {q : Cspy} (hc : q.custom = true) (u : Node) (rest : List Node) (n : Nat) (hn : n < rest.length) :
    some (q.consumed (u :: rest.take (n + 1))).time = (arrivalsFrom q.G 0 u rest)[n]? := by
  have key : ∀ (rest : List Node) (t : ℚ) (u : Node) (n : Nat), n < rest.length →
      some ((t :: arrivalsFrom q.G t u (rest.take (n + 1))).getLast (by simp)) = (arrivalsFrom q.G t u rest)[n]? := by
    intro rest
    induction rest with
    | nil => intro t u n hn; simp at hn
    | cons v rest ih =>
      intro t u n hn
      simp only [List.take_succ_cons, arrivalsFrom]
      rw [List.getLast_cons (a := t) (by simp)]
      cases n with
      | zero => simp [arrivalsFrom]
      | succ n =>
        rw [List.getElem?_cons_succ, ← ih _ v n (by simpa using hn)]
  rw [← key rest 0 u n hn]
  unfold consumed
  rw [consume_arrival hc]

/-- Starting at time 0 makes no difference: Source opens at 0, or no first stop opens before it can be reached from Source
(which the preprocessing makes sure of if Source has no service time, see `C19_prune_start`). -/
def Spec.StartFits (G : Net) (mid : List Node) : Prop :=
  G.lower .source = 0 ∨ (0 ≤ G.lower .source ∧
    ∃ v rest, mid = v :: rest ∧ G.lower .source + G.service .source + G.time .source v ≤ G.lower v)

theorem onTime_start {G : Net} {mid : List Node} (h : StartFits G mid) : OnTime G (routeOf mid) ↔
    ∀ p ∈ (mid ++ [Node.sink]).zip (arrivalsFrom G 0 .source (mid ++ [Node.sink])), p.2 ≤ G.upper p.1 := by
  have : arrivalsFrom G (G.lower .source) .source (mid ++ [Node.sink]) = arrivalsFrom G 0 .source (mid ++ [Node.sink]) := by
    rcases h with h | ⟨h0, v, rest, rfl, h1⟩
    · rw [h]
    · simp only [List.cons_append, arrivalsFrom]
      rw [max_eq_right h1, max_eq_right (by linarith)]
  simp only [routeOf, OnTime, this]

/-- **C19**, second half, for vehicles whose start fits and without a limit on the duration: a route is within the
limits for time and windows on all its prefixes exactly if it is on time.  What is missing: the claim is
false in general if Source opens later than 0 (`C19_start_counterexample`) or if there is a limit on the duration
(`C19_duration_counterexample`), and a route can fail other limits (`C19_within_limits_partial`). -/
theorem C19_on_time_partial {q : Cspy} {m : Res} {mid : List Node} (hform : q.formulate = .ok m)
    (htw : q.timeWindows = true) (hdur : active q.duration = none) (hstart : StartFits q.G mid)
    (hroute : IsRoute q.G (routeOf mid)) (hnn : ∀ u v, v ∈ q.G.succ u → 0 ≤ q.G.service u + q.G.time u v) :
    (∀ p, p ≠ [] → p <+: routeOf mid →
      (0 ≤ (q.consumed p).time ∧ (q.consumed p).time ≤ m.time) ∧ (q.consumed p).windows ≤ m.windows) ↔
    OnTime q.G (routeOf mid) := by
  have hcu : q.custom = true := by simp [custom, htw]
  obtain ⟨_, _, _, _, f5, f6, _⟩ := formulate_ok hform
  rw [f5 hdur, f6, if_pos htw, if_pos htw]
  obtain ⟨_, _, _, hal⟩ := hroute
  have hal' := (along_iff _ _).1 hal
  have hw := windows_iff htw (mid ++ [Node.sink]) {} .source
  have hot : OnTime q.G (routeOf mid) ↔ ∀ p, p <+: mid ++ [Node.sink] → (q.consume {} .source p).windows ≤ 0 := by
    rw [hw, onTime_start hstart]
    exact ⟨fun h => ⟨le_refl _, h⟩, fun h => h.2⟩
  rw [hot]
  constructor
  · intro h p hp
    exact (h (.source :: p) (by simp) (by simpa [routeOf] using hp)).2
  · intro h p hne hp
    cases p with
    | nil => exact absurd rfl hne
    | cons x p =>
      rw [routeOf, List.cons_prefix_cons] at hp
      obtain ⟨rfl, hp⟩ := hp
      have hm := time_mono hcu (mid ++ [Node.sink]) {} .source (fun u v huv => hnn u v (hal' u v huv)) p hp
      refine ⟨⟨hm.1, le_trans hm.2 ?_⟩, h p hp⟩
      have hlast := (hw.1 h).2
      have h1 : (q.consume {} .source (mid ++ [Node.sink])).time ≤ q.G.upper .sink := by
        rw [consume_arrival hcu]
        apply hlast (Node.sink, _)
        have gen : ∀ (mid : List Node) (t : ℚ) (u : Node),
            (Node.sink, (t :: arrivalsFrom q.G t u (mid ++ [Node.sink])).getLast (by simp)) ∈
              (mid ++ [Node.sink]).zip (arrivalsFrom q.G t u (mid ++ [Node.sink])) := by
          intro mid
          induction mid with
          | nil => intro t u; simp [arrivalsFrom]
          | cons j mid ih =>
            intro t u
            simp only [List.cons_append, arrivalsFrom, List.zip_cons_cons]
            rw [List.getLast_cons (a := t) (by simp)]
            exact List.mem_cons_of_mem _ (ih _ _)
        exact gen mid 0 .source
      linarith

/-- **C19**, whatever the limit on the duration: paths that cspy accepts are on time, if the start fits (needed, see
`C19_start_counterexample`). -/
theorem C19_accepted_on_time_partial {q : Cspy} {m : Res} {mid : List Node} (hform : q.formulate = .ok m)
    (htw : q.timeWindows = true) (hstart : StartFits q.G mid) (h : WithinLimits q m (routeOf mid)) :
    OnTime q.G (routeOf mid) := by
  have hcu : q.custom = true := by simp [custom, htw]
  obtain ⟨_, _, _, _, _, f6, _⟩ := formulate_ok hform
  rw [if_pos htw] at f6
  rw [routeOf, withinLimits_prefixes hcu] at h
  have := (windows_iff htw (mid ++ [Node.sink]) {} .source).1 (fun p hp =>
    le_trans (within_iff.1 (h p hp)).2.2.2.1.2 (le_of_eq f6))
  exact (onTime_start hstart).2 this.2

theorem strengthen_start {G G' : Net} (h : strengthenWindows G = .ok G') :
    G'.nodes = G.nodes ∧ G'.succ = G.succ ∧ G'.time = G.time ∧ G'.service = G.service ∧ G'.lower .source = G.lower .source ∧
      ∀ v ∈ G.nodes, v.isDepot = false → G'.lower .source + G'.time .source v ≤ G'.lower v := by
  unfold strengthenWindows at h
  refine foldlM_prefix (P := fun pre H => H.nodes = G.nodes ∧ H.succ = G.succ ∧ H.time = G.time ∧ H.service = G.service ∧
    H.lower .source = G.lower .source ∧ ∀ v ∈ pre, v.isDepot = false → H.lower .source + H.time .source v ≤ H.lower v) _ _ _
    ⟨rfl, rfl, rfl, rfl, rfl, by simp⟩ ?_ h
  rintro pre v H H' _ ⟨h1, h2, h3, h4, h5, h6⟩ hstep
  split at hstep
  · rename_i hdep
    simp only [Except.ok.injEq] at hstep
    subst hstep
    refine ⟨h1, h2, h3, h4, h5, ?_⟩
    intro w hw hwd
    rcases List.mem_append.1 hw with hw | hw
    · exact h6 w hw hwd
    · simp only [List.mem_singleton] at hw
      subst hw
      rw [hdep] at hwd
      cases hwd
  · rename_i hdep
    split at hstep
    · cases hstep
    · rename_i t1 ht1
      split at hstep
      · cases hstep
      · simp only [Except.ok.injEq] at hstep
        subst hstep
        have hv : Node.source ≠ v := by
          rintro rfl
          exact hdep rfl
        have ht : t1 = H.time .source v := by
          simp only [Net.edgeTime] at ht1
          split at ht1
          · simpa using ht1.symm
          · cases ht1
        refine ⟨h1, h2, h3, h4, by simpa [hv] using h5, ?_⟩
        intro w hw hwd
        simp only [if_neg hv]
        by_cases hwv : w = v
        · subst hwv
          simp only [if_pos]
          rw [← ht]
          exact le_max_right _ _
        · rw [if_neg hwv]
          rcases List.mem_append.1 hw with hw | hw
          · exact h6 w hw hwd
          · simp only [List.mem_singleton] at hw
            exact absurd hw hwv

/-- **C19**, in the program: after the preprocessing (`_prune_graph` with time windows), if Source opens at 0 or later and has
no service time, the start fits on every route with a customer. -/
theorem C19_prune_start {G G' : Net} {caps : List ℚ} (h : pruneGraph G caps true = .ok G') (hlow : 0 ≤ G'.lower .source)
    (hserv : G.service .source = 0) (hG : WellFormed G) {mid : List Node} (hroute : IsRoute G' (routeOf mid)) (hne : mid ≠ []) :
    StartFits G' mid := by
  right
  refine ⟨hlow, ?_⟩
  obtain ⟨mid', he, hmid, hal⟩ := hroute
  have : mid' = mid := by
    simp only [routeOf, List.cons.injEq, true_and] at he
    exact (List.append_cancel_right he).symm
  subst this
  cases mid' with
  | nil => exact absurd rfl hne
  | cons v rest =>
    refine ⟨v, rest, rfl, ?_⟩
    obtain ⟨⟨n, rfl⟩, hv⟩ := hmid v (by simp)
    have hsucc : Node.cust n ∈ G'.succ .source := by
      simp only [routeOf, List.cons_append, Along] at hal
      exact hal.1
    have key : ∀ H : Net, H.service .source = 0 → Node.source ∈ H.nodes → removeInfeasibleArcsTimeWindows H = .ok G' →
        G'.lower .source + G'.service .source + G'.time .source (.cust n) ≤ G'.lower (.cust n) := by
      intro H hH hsrc h
      unfold removeInfeasibleArcsTimeWindows at h
      split at h
      · cases h
      · rename_i H' bad hfold
        simp only [Except.ok.injEq] at h
        subst h
        have inv := foldlM_prefix (P := fun pre (st : Net × List (Node × Node)) => st.1.service = H.service ∧
          st.1.succ = H.succ ∧ (pre ≠ [] → ∀ v ∈ st.1.nodes, v.isDepot = false →
            st.1.lower .source + st.1.time .source v ≤ st.1.lower v)) _ _ _ ⟨rfl, rfl, by simp⟩ (by
          rintro pre e st st' _ ⟨i1, i2, _⟩ hstep
          simp only [twStep] at hstep
          split at hstep
          · cases hstep
          · split at hstep
            · cases hstep
            · rename_i H2 hs
              simp only [Except.ok.injEq] at hstep
              subst hstep
              obtain ⟨s1, s2, s3, s4, _, s6⟩ := strengthen_start hs
              refine ⟨s4.trans i1, s2.trans i2, fun _ v hv => s6 v ?_⟩
              rw [← s1]; exact hv) hfold
        obtain ⟨i1, i2, i3⟩ := inv
        simp only at i1 i2 i3
        have hmem : Node.cust n ∈ H'.succ .source := (mem_removeEdges.1 hsucc).1
        show H'.lower .source + H'.service .source + H'.time .source (.cust n) ≤ H'.lower (.cust n)
        rw [i1, hH, add_zero]
        refine i3 ?_ _ hv rfl
        intro hnil
        have : (Node.source, Node.cust n) ∈ H.edges := by
          rw [Net.edges, List.mem_flatMap]
          exact ⟨.source, hsrc, List.mem_map.2 ⟨_, by rw [← i2]; exact hmem, rfl⟩⟩
        rw [hnil] at this
        cases this
    unfold pruneGraph at h
    simp only [if_true] at h
    refine key _ ?_ ?_ h
    · cases caps <;> exact hserv
    · cases caps <;> exact hG.source_mem

/-- Nothing is negative: demands, collections. -/
structure Spec.NonnegativeGoods (G : Net) : Prop where
  demand : ∀ v ∈ G.nodes, 0 ≤ G.demand v
  collect : ∀ v ∈ G.nodes, 0 ≤ G.collect v

theorem route_nodes {G : Net} (hG : WellFormed G) {mid : List Node} (h : IsRoute G (routeOf mid)) :
    ∀ v ∈ mid ++ [Node.sink], v ∈ G.nodes := by
  obtain ⟨mid', he, h1, _⟩ := h
  have : mid' = mid := by
    simp only [routeOf, List.cons.injEq, true_and] at he
    exact (List.append_cancel_right he).symm
  subst this
  intro v hv
  rcases List.mem_append.1 hv with hv | hv
  · exact (h1 v hv).2
  · simp only [List.mem_singleton] at hv
    subst hv
    exact hG.sink_mem

theorem sum_nonneg_of {G : Net} {f : Node → ℚ} {l : List Node} (hf : ∀ v ∈ G.nodes, 0 ≤ f v) (hl : ∀ v ∈ l, v ∈ G.nodes) :
    0 ≤ (l.map f).sum := by
  apply List.sum_nonneg
  intro x hx
  obtain ⟨v, hv, rfl⟩ := List.mem_map.1 hx
  exact hf v (hl v hv)

theorem sum_prefix_le {G : Net} {f : Node → ℚ} {p l : List Node} (hf : ∀ v ∈ G.nodes, 0 ≤ f v) (hl : ∀ v ∈ l, v ∈ G.nodes)
    (hp : p <+: l) : (p.map f).sum ≤ (l.map f).sum := by
  obtain ⟨s, rfl⟩ := hp
  rw [List.map_append, List.sum_append]
  have := sum_nonneg_of hf (fun v hv => hl v (List.mem_append_right _ hv))
  linarith

theorem load_routeOf {G : Net} (hd : G.demand .source = 0) (mid : List Node) :
    load G (routeOf mid) = ((mid ++ [Node.sink]).map G.demand).sum := by
  simp [load, routeOf, hd]

/-- The bound on the number of legs. -/
def Spec.legLimit (q : Cspy) : ℚ := (q.setStops q.initialMax).stops

theorem legLimit_some {q : Cspy} {n : Nat} (hn : n ≠ 0) (h : q.numStops = some n) : legLimit q = n + 1 := by
  unfold legLimit setStops
  obtain ⟨k, rfl⟩ := Nat.exists_eq_succ_of_ne_zero hn
  simp only [h]

theorem legLimit_none {q : Cspy} (h : ∀ n, q.numStops = some n → n = 0) : legLimit q = (q.G.nodes.length / 2 : Nat) := by
  unfold legLimit setStops
  split
  · rename_i n hn
    exact absurd (h _ hn) (by simp)
  · rfl

/-- **C19** for all limits together: with time windows, no limit on the duration and a start that fits, cspy accepts a route
exactly if it is on time, has no more legs than the limit, and its load is at most the limit (the capacity, if set). -/
theorem C19_within_limits_partial {q : Cspy} {m : Res} {mid : List Node} (hG : WellFormed q.G)
    (hform : q.formulate = .ok m)
    (htw : q.timeWindows = true) (hdc : q.distributionCollection = false) (hdur : active q.duration = none)
    (hstart : StartFits q.G mid) (hd : q.G.demand .source = 0) (hgoods : NonnegativeGoods q.G)
    (hroute : IsRoute q.G (routeOf mid)) (hnn : ∀ u v, v ∈ q.G.succ u → 0 ≤ q.G.service u + q.G.time u v) :
    WithinLimits q m (routeOf mid) ↔
      OnTime q.G (routeOf mid) ∧ (mid.length : ℚ) + 1 ≤ legLimit q ∧ load q.G (routeOf mid) ≤ m.load := by
  have hcu : q.custom = true := by simp [custom, htw]
  have hcnt : q.counts := Or.inl hcu
  have hmem := route_nodes hG hroute
  obtain ⟨f1, f2, f3, _, _, f6, _⟩ := formulate_ok hform
  have htot : 0 ≤ q.initialMax.collect ∧ 0 ≤ q.initialMax.deliver :=
    ⟨sum_nonneg_of hgoods.demand (fun _ h => h), sum_nonneg_of hgoods.demand (fun _ h => h)⟩
  have hcd : 0 ≤ m.collect ∧ 0 ≤ m.deliver := by
    by_cases hcap : q.caps = []
    · rw [(f2 hcap).2.1, (f2 hcap).2.2]; exact htot
    · rw [((f3 hcap).2.2 hdc).1, ((f3 hcap).2.2 hdc).2]; exact htot
  rw [← C19_on_time_partial hform htw hdur hstart hroute hnn, load_routeOf hd, legLimit, ← f1]
  constructor
  · intro h
    have hw := within_iff.1 (withinLimits_whole h)
    rw [consume_stops, consume_load hcnt] at hw
    refine ⟨?_, ?_, ?_⟩
    · intro p hne hp
      unfold WithinLimits at h
      rw [if_pos hcu] at h
      have := within_iff.1 (h p hne hp)
      exact ⟨this.2.2.1, this.2.2.2.1.2⟩
    · have := hw.1.2
      simp only [zero_add, List.length_append, List.length_singleton] at this
      push_cast at this
      exact this
    · have := hw.2.1.2
      simpa using this
  · rintro ⟨h1, h2, h3⟩
    rw [routeOf, withinLimits_prefixes hcu]
    intro p hp
    have h4 := h1 (.source :: p) (by simp) (by simpa [routeOf] using hp)
    have hlen : (p.length : ℚ) ≤ mid.length + 1 := by
      have := hp.length_le
      simp only [List.length_append, List.length_singleton] at this
      exact_mod_cast this
    have hpre := sum_prefix_le hgoods.demand hmem hp
    have hpmem : ∀ v ∈ p, v ∈ q.G.nodes := fun v hv => hmem v (hp.subset hv)
    obtain ⟨u1, u2⟩ := consume_unused hdc p {} .source
    rw [within_iff, u1, u2, consume_stops, consume_load hcnt]
    refine ⟨⟨by simp, by simp only [zero_add]; linarith⟩, ⟨?_, by simp only [zero_add]; linarith⟩, h4.1,
      ⟨windows_nonneg _ _ _ (le_refl _), h4.2⟩, ⟨le_refl _, hcd.1⟩, ⟨le_refl _, hcd.2⟩⟩
    simp only [zero_add]
    exact sum_nonneg_of hgoods.demand hpmem

/-! ## C20 -/

/-- **C20.** With simultaneous distribution and collection, the load resources are within the limits on all prefixes of a
route exactly if the goods on board never exceed the capacity of the vehicle. -/
theorem C20_goods {q : Cspy} {m : Res} {mid : List Node} {cap : ℚ} (hG : WellFormed q.G) (hform : q.formulate = .ok m)
    (hdc : q.distributionCollection = true) (hcap : q.caps[q.vehicleType]? = some cap)
    (hd' : q.G.demand .sink = 0) (hc : q.G.collect .source = 0) (hc' : q.G.collect .sink = 0)
    (hgoods : NonnegativeGoods q.G) (hroute : IsRoute q.G (routeOf mid)) :
    (∀ p, p ≠ [] → p <+: routeOf mid →
      (0 ≤ (q.consumed p).load ∧ (q.consumed p).load ≤ m.load) ∧
      (0 ≤ (q.consumed p).collect ∧ (q.consumed p).collect ≤ m.collect) ∧
      (0 ≤ (q.consumed p).deliver ∧ (q.consumed p).deliver ≤ m.deliver)) ↔
    GoodsWithin q.G cap (routeOf mid) := by
  have hcu := custom_of_dc hdc
  have hcnt : q.counts := Or.inl hcu
  have hmem := route_nodes hG hroute
  obtain ⟨_, _, f3, _⟩ := formulate_ok hform
  have hne : q.caps ≠ [] := by
    intro h; rw [h] at hcap; cases hcap
  obtain ⟨g1, g2, _⟩ := f3 hne
  obtain ⟨g2, g3⟩ := g2 hdc
  have hm : m.load = cap := by
    rw [hcap] at g1; exact (Option.some.inj g1).symm
  rw [g2, g3, hm]
  have hdel := deliver_le_iff hdc cap (mid ++ [Node.sink]) {} .source
  have hgw : GoodsWithin q.G cap (routeOf mid) ↔ (q.consume {} .source (mid ++ [Node.sink])).deliver ≤ cap := by
    rw [hdel]
    simp only [zero_add]
    constructor
    · intro h
      refine ⟨?_, ?_⟩
      · have := h [.source] (mid ++ [Node.sink]) rfl (by simp) (by simp)
        simpa [load, hc] using this
      · intro a b hab ha
        by_cases hb : b = []
        · subst hb
          rw [List.append_nil] at hab
          have := h (.source :: mid) [Node.sink] rfl (by simp) (by simp)
          rw [← hab]
          simpa [load, hc, hc', hd'] using this
        · have := h (.source :: a) b (by rw [routeOf, hab]; rfl) (by simp) hb
          simp only [load, List.map_cons, List.sum_cons, hc, zero_add] at this
          linarith
    · rintro ⟨h1, h2⟩ pre post hpp hpre hpost
      cases pre with
      | nil => exact absurd rfl hpre
      | cons x a =>
        simp only [routeOf, List.cons_append, List.cons.injEq] at hpp
        obtain ⟨rfl, hpp⟩ := hpp
        simp only [load, List.map_cons, List.sum_cons, hc, zero_add]
        by_cases ha : a = []
        · subst ha
          rw [List.nil_append] at hpp
          rw [hpp] at h1
          simpa using h1
        · have := h2 a post hpp ha
          linarith
  rw [hgw]
  constructor
  · intro h
    exact (h (routeOf mid) (by simp [routeOf]) (List.prefix_refl _)).2.2.2
  · intro h p hpne hp
    cases p with
    | nil => exact absurd rfl hpne
    | cons x p =>
      rw [routeOf, List.cons_prefix_cons] at hp
      obtain ⟨rfl, hp⟩ := hp
      have hpmem : ∀ v ∈ p, v ∈ q.G.nodes := fun v hv => hmem v (hp.subset hv)
      have h' := hdel.1 h
      simp only [zero_add] at h'
      obtain ⟨d1, d2⟩ := h'
      have e1 : (q.consumed (Node.source :: p)).load = (p.map q.G.demand).sum := by
        show (q.consume {} .source p).load = _
        rw [consume_load hcnt]; simp
      have e2 : (q.consumed (Node.source :: p)).collect = (p.map q.G.collect).sum := by
        show (q.consume {} .source p).collect = _
        rw [consume_collect hdc]; simp
      rw [e1, e2]
      have c1 := sum_nonneg_of hgoods.demand hpmem
      have c2 := sum_nonneg_of hgoods.collect hpmem
      have c3 := sum_prefix_le hgoods.demand hmem hp
      have c4 := sum_prefix_le hgoods.collect hmem hp
      have c5 := d2 (mid ++ [Node.sink]) [] (by simp) (by simp)
      simp only [List.map_nil, List.sum_nil, add_zero] at c5
      refine ⟨⟨c1, by linarith⟩, ⟨c2, by linarith⟩, ⟨deliver_nonneg hdc _ _ _ (le_refl _)
        (fun v hv => hgoods.demand v (hpmem v hv)), ?_⟩⟩
      show (q.consume {} .source p).deliver ≤ cap
      rw [deliver_le_iff hdc]
      simp only [zero_add]
      refine ⟨by linarith, ?_⟩
      intro a b hab ha
      obtain ⟨s, hs⟩ := hp
      have := d2 a (b ++ s) (by rw [← hs, hab, List.append_assoc]) ha
      rw [List.map_append, List.sum_append] at this
      have hsn : 0 ≤ (s.map q.G.demand).sum :=
        sum_nonneg_of hgoods.demand (fun v hv => hmem v (by rw [← hs]; exact List.mem_append_right _ hv))
      linarith

/-- **C20**, for the paths cspy accepts. -/
theorem C20_goods_of_limits {q : Cspy} {m : Res} {mid : List Node} {cap : ℚ} (hG : WellFormed q.G) (hform : q.formulate = .ok m)
    (hdc : q.distributionCollection = true) (hcap : q.caps[q.vehicleType]? = some cap)
    (hd' : q.G.demand .sink = 0) (hc : q.G.collect .source = 0) (hc' : q.G.collect .sink = 0)
    (hgoods : NonnegativeGoods q.G) (hroute : IsRoute q.G (routeOf mid)) (h : WithinLimits q m (routeOf mid)) :
    GoodsWithin q.G cap (routeOf mid) := by
  refine (C20_goods hG hform hdc hcap hd' hc hc' hgoods hroute).1 ?_
  intro p hne hp
  unfold WithinLimits at h
  rw [if_pos (custom_of_dc hdc)] at h
  have := within_iff.1 (h p hne hp)
  exact ⟨this.2.1, this.2.2.2.2.1, this.2.2.2.2.2⟩

/-! ## C21 -/

/-- A path that cspy accepts respects stops, load and duration (the latter with service times only if the custom resource
function is used). -/
theorem limits_of_within {q : Cspy} {m : Res} {mid : List Node} (hform : q.formulate = .ok m)
    (hd : q.G.demand .source = 0) (hs : q.G.service .sink = 0) (h : WithinLimits q m (routeOf mid)) :
    ((mid.length : ℚ) + 1 ≤ legLimit q) ∧ WithinStops q.numStops mid.length ∧
      WithinCapacity q.caps q.vehicleType (load q.G (routeOf mid)) ∧
      (q.custom = true → Within q.duration (Spec.duration q.G (routeOf mid))) ∧
      (q.custom = false → Within q.duration (travel q.G (routeOf mid))) := by
  obtain ⟨f1, _, f3, f4, _, _, _⟩ := formulate_ok hform
  have hw := within_iff.1 (withinLimits_whole h)
  have hst := hw.1.2
  rw [consume_stops, f1] at hst
  simp only [zero_add, List.length_append, List.length_singleton] at hst
  push_cast at hst
  refine ⟨hst, ?_, ?_, ?_, ?_⟩
  · intro n hn hn0
    have := legLimit_some hn0 hn
    unfold legLimit at this
    rw [this] at hst
    have : (mid.length : ℚ) ≤ n := by linarith
    exact_mod_cast this
  · intro hcap
    refine ⟨m.load, (f3 hcap).1, ?_⟩
    have := hw.2.1.2
    rw [consume_load (Or.inr hcap)] at this
    rw [load_routeOf hd]
    simpa using this
  · intro hcu d hd1 hd0
    have hact : active q.duration = some d := active_eq_some.2 ⟨hd1, hd0⟩
    have h1 := hw.2.2.1.2
    rw [f4 d hact] at h1
    have h2 := le_consume_time hcu (mid ++ [Node.sink]) {} .source
    rw [PricingLP.legSum_add, PricingLP.legSum_tail] at h2
    have e : Node.source :: (mid ++ [Node.sink]) = (Node.source :: mid) ++ [Node.sink] := rfl
    rw [e, List.dropLast_concat] at h2
    simp only [Spec.duration, travel, routeOf]
    rw [e]
    rw [List.map_append, List.sum_append]
    simp only [List.map_cons, List.map_nil, List.sum_cons, List.sum_nil, hs, add_zero] at h2 ⊢
    linarith
  · intro hcu d hd1 hd0
    have hact : active q.duration = some d := active_eq_some.2 ⟨hd1, hd0⟩
    have h1 := hw.2.2.1.2
    rw [f4 d hact, consume_travel hcu, hact] at h1
    simpa [routeOf] using h1

/-- What a successful call of `solve` returns. -/
theorem cspy_solve_inv {q : Cspy} {run : Bool} {keys : List Node} {oracle : Cspy.Oracle} {cols cols' : List Column}
    (h : q.solve run keys oracle cols = .ok (cols', true)) :
    ∃ m e c path col, q.formulate = .ok m ∧ oracle m e = some (c, path) ∧ e ∈ q.runs ∧ c < -(1 / 1000) ∧
      q.createRoute keys cols.length path = .ok col ∧ (∀ r ∈ cols, r.edges ≠ col.edges) ∧ cols' = cols ++ [col] := by
  unfold solve at h
  split at h
  · cases h
  · split at h
    · cases h
    · rename_i m hm
      have key : ∀ es : List Bool, q.attempts keys (oracle m) cols es = .ok (cols', true) → (∀ e ∈ es, e ∈ q.runs) →
          ∃ e c path col, oracle m e = some (c, path) ∧ e ∈ q.runs ∧ c < -(1 / 1000) ∧
            q.createRoute keys cols.length path = .ok col ∧ (∀ r ∈ cols, r.edges ≠ col.edges) ∧ cols' = cols ++ [col] := by
        intro es
        induction es with
        | nil => intro h _; simp [attempts] at h
        | cons e es ih =>
          intro h hes
          simp only [attempts] at h
          split at h
          · simp at h
          · rename_i c path hp
            split at h
            · rename_i hneg
              split at h
              · cases h
              · rename_i col hcol
                split at h
                · exact ih h (fun e he => hes e (List.mem_cons_of_mem _ he))
                · rename_i hany
                  simp only [Except.ok.injEq, Prod.mk.injEq, and_true] at h
                  refine ⟨e, c, path, col, hp, hes e (by simp), hneg, hcol, ?_, h.symm⟩
                  simpa using hany
            · simp at h
      obtain ⟨e, c, path, col, h1⟩ := key _ h (fun _ h => h)
      exact ⟨m, e, c, path, col, hm, h1⟩

/-- Pricing that reports no success leaves the columns alone. -/
theorem C21_no_column {q : Cspy} {run : Bool} {keys : List Node} {oracle : Cspy.Oracle} {cols cols' : List Column}
    (h : q.solve run keys oracle cols = .ok (cols', false)) : cols' = cols := by
  unfold solve at h
  split at h
  · simp only [Except.ok.injEq, Prod.mk.injEq, and_true] at h; exact h.symm
  · split at h
    · cases h
    · rename_i m _
      have key : ∀ es : List Bool, q.attempts keys (oracle m) cols es = .ok (cols', false) → cols' = cols := by
        intro es
        induction es with
        | nil => intro h; simp only [attempts, Except.ok.injEq, Prod.mk.injEq, and_true] at h; exact h.symm
        | cons e es ih =>
          intro h
          simp only [attempts] at h
          split at h
          · simp only [Except.ok.injEq, Prod.mk.injEq, and_true] at h; exact h.symm
          · split at h
            · split at h
              · cases h
              · split at h
                · exact ih h
                · simp at h
            · simp only [Except.ok.injEq, Prod.mk.injEq, and_true] at h; exact h.symm
      exact key _ h

/-- **C21.** A column found with cspy is a route (possibly with repeated nodes: then it is called "non-elem") with reduced cost
below -0.001 that respects the number of stops and the load, and different from all columns there are; if it has no repeated
nodes the column stands for it.  Its travel time is at most `duration`.  What is missing: with service times it is so
only if the custom resource function is used, i.e. with time windows or distribution and collection, see
`C21_service_counterexample`. -/
theorem C21_columns_partial {q : Cspy} {run : Bool} {keys : List Node} {oracle : Cspy.Oracle} {cols cols' : List Column}
    (hG : WellFormed q.G) (hd : q.G.demand .source = 0) (hs : q.G.service .sink = 0)
    (hsound : CspySound q oracle) (h : q.solve run keys oracle cols = .ok (cols', true)) :
    ∃ col r, cols' = cols ++ [col] ∧ col.path = some r ∧ col.vehicleType = q.vehicleType ∧ IsRoute q.G r ∧
      legSum q.weight r < -(1 / 1000) ∧
      WithinStops q.numStops (stops r).length ∧ WithinCapacity q.caps q.vehicleType (load q.G r) ∧
      (q.custom = true → Within q.duration (Spec.duration q.G r)) ∧
      (q.custom = false → Within q.duration (travel q.G r)) ∧
      (r.Nodup → col.name = .elem (cols.length + 1) ∧ Encodes q.G col r) ∧
      (¬ r.Nodup → col.name = .nonElem (cols.length + 1)) ∧ (∀ c ∈ cols, c.edges ≠ col.edges) := by
  obtain ⟨m, e, c, path, col, hform, horacle, _, hneg, hcol, hnew, rfl⟩ := cspy_solve_inv h
  obtain ⟨o1, o2, o3, o4, _, o6⟩ := hsound m e c path horacle
  have hroute := route_of_walk hG o1 o2 o3
  obtain ⟨mid, rfl, hmid, _⟩ := id hroute
  obtain ⟨_, l2, l3, l4, l5⟩ := limits_of_within hform hd hs o6
  have hcust := route_customers hroute
  unfold createRoute at hcol
  simp only at hcol
  split at hcol
  · cases hcol
  · rename_i z hz
    split at hcol
    · cases hcol
    · simp only [Except.ok.injEq] at hcol
      subst hcol
      refine ⟨_, routeOf mid, rfl, rfl, rfl, hroute, by rw [← o4]; exact hneg, by rw [stops_routeOf hcust]; exact l2,
        l3, l4, l5, ?_, ?_, hnew⟩
      · intro hnd
        refine ⟨by simp [hnd], ?_⟩
        refine encodes_of_perm hnd (by simp [routeOf]) (List.Perm.refl _) rfl rfl ?_
        rw [sumEdgeCosts_ok] at hz ⊢
        have hp := graphEdges_perm (consecutive_nodup hnd)
        refine ⟨fun e he => hz.1 e (hp.mem_iff.2 he), ?_⟩
        rw [hz.2]
        exact (hp.map _).sum_eq
      · intro hnd
        simp [hnd]

/-! ## C22 -/

/-- **C22**, what is true: without limits and variants, cspy accepts an elementary route exactly if its number of legs is at
most half the number of nodes.  Missing: longer routes are excluded although nobody asked for a limit
(`C22_counterexample`). -/
theorem C22_length_limit_partial {q : Cspy} {m : Res} {mid : List Node} (hform : q.formulate = .ok m)
    (hgoods : NonnegativeGoods q.G) (htime : ∀ u v, v ∈ q.G.succ u → 0 ≤ q.G.time u v) (hG : WellFormed q.G)
    (hstops : q.numStops = none) (hcaps : q.caps = []) (hdur : q.duration = none) (hcu : q.custom = false) :
    WithinLimits q m (routeOf mid) ↔ mid.length + 1 ≤ q.G.nodes.length / 2 := by
  obtain ⟨f1, f2, _, _, f5, f6, _⟩ := formulate_ok hform
  have hcu' : ¬ q.custom = true := by simp [hcu]
  have hdc : q.distributionCollection = false := by
    simp only [custom, Bool.or_eq_false_iff] at hcu
    exact hcu.1.2
  have htw : q.timeWindows = false := by
    simp only [custom, Bool.or_eq_false_iff] at hcu
    exact hcu.1.1
  have hact : active q.duration = none := by rw [hdur]; rfl
  have hcnt : ¬ q.counts := by simp [counts, hcu, hcaps]
  have hlim := legLimit_none (q := q) (by rw [hstops]; intro n hn; cases hn)
  unfold legLimit at hlim
  rw [hlim] at f1
  obtain ⟨u1, u2⟩ := consume_unused hdc (mid ++ [Node.sink]) {} .source
  have hw := consume_windows htw (mid ++ [Node.sink]) {} .source rfl
  have ht := consume_travel hcu (mid ++ [Node.sink]) {} .source
  rw [if_pos hact] at ht
  have htot : 0 ≤ (q.G.nodes.map q.G.demand).sum := sum_nonneg_of hgoods.demand (fun _ h => h)
  have htt : 0 ≤ (q.G.edges.map (fun e => q.G.time e.1 e.2)).sum := by
    apply List.sum_nonneg
    intro x hx
    obtain ⟨⟨u, v⟩, he, rfl⟩ := List.mem_map.1 hx
    exact htime u v ((Net.mem_edges hG u v).1 he)
  have : WithinLimits q m (routeOf mid) ↔ m.within (q.consume {} .source (mid ++ [Node.sink])) := by
    unfold WithinLimits
    rw [if_neg hcu']
    rfl
  rw [this, within_iff, u1, u2, hw, ht, consume_load_not hcnt, consume_stops, (f2 hcaps).1, (f2 hcaps).2.1,
    (f2 hcaps).2.2, f5 hact, f6, f1]
  simp only [htw, initialMax, zero_add, List.length_append, List.length_singleton]
  constructor
  · intro h
    exact_mod_cast h.1.2
  · intro h
    exact ⟨⟨by positivity, by exact_mod_cast h⟩, ⟨le_refl _, htot⟩, ⟨by norm_num, by simpa using htt⟩, ⟨le_refl _, by simp⟩,
      ⟨le_refl _, htot⟩, ⟨le_refl _, htot⟩⟩

/-- In general (with whatever other limits), without `num_stops` every accepted path has at most as many legs as half the
number of nodes. -/
theorem C22_excludes {q : Cspy} {m : Res} {mid : List Node} (hform : q.formulate = .ok m)
    (hstops : q.numStops = none) (hlong : q.G.nodes.length / 2 < mid.length + 1) : ¬ WithinLimits q m (routeOf mid) := by
  intro h
  obtain ⟨f1, _⟩ := formulate_ok hform
  have hlim := legLimit_none (q := q) (by rw [hstops]; intro n hn; cases hn)
  unfold legLimit at hlim
  have := (within_iff.1 (withinLimits_whole h)).1.2
  rw [consume_stops, f1, hlim] at this
  simp only [zero_add, List.length_append, List.length_singleton] at this
  have h2 : mid.length + 1 ≤ q.G.nodes.length / 2 := by exact_mod_cast this
  omega

/-! ## Examples and counterexamples -/

/-- Two customers, all arcs (also used with time windows). -/
def exNet : Net where
  nodes := [.source, .cust 1, .cust 2, .sink]
  succ
    | .source => [.cust 1, .cust 2]
    | .cust 1 => [.cust 2, .sink]
    | .cust 2 => [.cust 1, .sink]
    | _ => []
  demand := fun v => if v = .cust 1 then 3 else if v = .cust 2 then 4 else 0
  collect := fun v => if v = .cust 1 then 4 else if v = .cust 2 then 3 else 0
  service := fun v => if v.isDepot then 0 else 5
  lower := fun v => if v = .cust 2 then 30 else 0
  upper := fun v => if v = .cust 1 then 20 else 100
  cost := fun _ _ => [1]
  time := fun _ _ => 10

theorem exNet_wf : WellFormed exNet := by
  refine ⟨by decide, ?_, ?_, by decide, by decide, ?_, by decide⟩
  · intro u; simp only [exNet]; split <;> decide
  · intro u v; simp only [exNet]; split <;> simp <;> tauto
  · intro u; simp only [exNet]; split <;> decide

theorem exNet_goods : NonnegativeGoods exNet := by
  constructor
  · intro v _; simp only [exNet]; split <;> (try split) <;> norm_num
  · intro v _; simp only [exNet]; split <;> (try split) <;> norm_num

def exCspy : Cspy where
  G := exNet
  weight := fun _ _ => -1
  caps := [8]
  numStops := some 2

theorem exCspy_route : IsRoute exNet (routeOf [.cust 1, .cust 2]) :=
  (isSimpleRoute_routeOf (L := [.cust 1, .cust 2]) (by decide) (by decide) (by simp [Along, routeOf, exNet])).1

theorem exCspy_route' : IsRoute exNet (routeOf [.cust 2, .cust 1]) :=
  (isSimpleRoute_routeOf (L := [.cust 2, .cust 1]) (by decide) (by decide) (by simp [Along, routeOf, exNet])).1

/-- C19 applies: 1 before 2 is on time, 2 before 1 is not. -/
example : ∃ m, Cspy.formulate { exCspy with timeWindows := true } = .ok m ∧
    WithinLimits { exCspy with timeWindows := true } m (routeOf [.cust 1, .cust 2]) ∧
    ¬ WithinLimits { exCspy with timeWindows := true } m (routeOf [.cust 2, .cust 1]) := by
  have hnn : ∀ u v, v ∈ exNet.succ u → 0 ≤ exNet.service u + exNet.time u v := by
    intro u v _; simp only [exNet]; split <;> norm_num
  refine ⟨_, rfl, ?_, ?_⟩
  · rw [C19_within_limits_partial exNet_wf rfl rfl rfl rfl (Or.inl rfl) rfl exNet_goods exCspy_route hnn]
    refine ⟨?_, by decide +kernel, by decide +kernel⟩
    show ∀ p ∈ _, _
    decide +kernel
  · rw [C19_within_limits_partial exNet_wf rfl rfl rfl rfl (Or.inl rfl) rfl exNet_goods exCspy_route' hnn]
    rintro ⟨h, _⟩
    have h' : ∀ p ∈ (_ : List (Node × ℚ)), _ := h
    exact absurd h' (by decide +kernel)

/-- Limits can be checked by running through the prefixes. -/
theorem withinLimits_of {q : Cspy} {m : Res} {i : Node} {rest : List Node} (hc : q.custom = true) :
    WithinLimits q m (i :: rest) ↔ ∀ p ∈ rest.inits, m.within (q.consume {} i p) := by
  rw [withinLimits_prefixes hc]
  simp only [List.mem_inits]

/-- C20 applies: delivering 3 and collecting 4 first needs 8 units of space between the customers, which fits; with the
customers in the other order 7 units are enough. -/
example : ∃ m, Cspy.formulate { exCspy with distributionCollection := true } = .ok m ∧
    WithinLimits { exCspy with distributionCollection := true } m (routeOf [.cust 1, .cust 2]) ∧
    GoodsWithin exNet 8 (routeOf [.cust 1, .cust 2]) ∧ ¬ GoodsWithin exNet 7 (routeOf [.cust 1, .cust 2]) ∧
    GoodsWithin exNet 7 (routeOf [.cust 2, .cust 1]) := by
  have h8 : WithinLimits { exCspy with distributionCollection := true } ⟨3, 8, 60, 1, 8, 8⟩ (routeOf [.cust 1, .cust 2]) := by
    rw [routeOf, withinLimits_of rfl]
    decide +kernel
  have hf : Cspy.formulate { exCspy with distributionCollection := true } = .ok ⟨3, 8, 60, 1, 8, 8⟩ := by decide +kernel
  have hf7 : Cspy.formulate { exCspy with distributionCollection := true, caps := [7] } = .ok ⟨3, 7, 60, 1, 7, 7⟩ := by
    decide +kernel
  refine ⟨_, hf, h8, C20_goods_of_limits exNet_wf hf rfl rfl rfl rfl rfl exNet_goods exCspy_route h8, ?_, ?_⟩
  · intro h
    have := (h [.source, .cust 1] [.cust 2, .sink] rfl (by simp) (by simp))
    exact absurd this (by decide +kernel)
  · refine C20_goods_of_limits exNet_wf hf7 rfl rfl rfl rfl rfl exNet_goods exCspy_route' ?_
    rw [routeOf, withinLimits_of rfl]
    decide +kernel

/-- Source opens at 50 and has a service time of 20. -/
def exLate : Net where
  nodes := [.source, .cust 1, .cust 2, .sink]
  succ
    | .source => [.cust 1, .cust 2]
    | .cust 1 => [.cust 2, .sink]
    | .cust 2 => [.cust 1, .sink]
    | _ => []
  service := fun v => if v = .source then 20 else if v = .sink then 0 else 5
  lower := fun v => if v = .source then 50 else 0
  upper := fun v => if v = .cust 1 then 100 else if v = .cust 2 then 90 else 1000
  cost := fun _ _ => [1]
  time := fun _ _ => 10

/-- **C19**, counterexample: Source opens at 50 and loading takes 20, so a vehicle that visits 1 and then 2 reaches customer 2
at 95, after its window has closed (90).  cspy starts its clock at 0 and accepts the route, on the network as given and
also after the time windows have been strengthened in the preprocessing. -/
theorem C19_start_counterexample :
    ¬ OnTime exLate [.source, .cust 1, .cust 2, .sink] ∧
    (∃ m, Cspy.formulate { G := exLate, weight := fun _ _ => -1, numStops := some 2, timeWindows := true } = .ok m ∧
      WithinLimits { G := exLate, weight := fun _ _ => -1, numStops := some 2, timeWindows := true } m
        [.source, .cust 1, .cust 2, .sink]) ∧
    ∃ G', pruneGraph exLate [] true = .ok G' ∧ ¬ OnTime G' [.source, .cust 1, .cust 2, .sink] ∧
      ∃ m, Cspy.formulate { G := G', weight := fun _ _ => -1, numStops := some 2, timeWindows := true } = .ok m ∧
        WithinLimits { G := G', weight := fun _ _ => -1, numStops := some 2, timeWindows := true } m
          [.source, .cust 1, .cust 2, .sink] := by
  have late : ∀ G : Net, (¬ ∀ p ∈ [Node.cust 1, .cust 2, .sink].zip (arrivalsFrom G (G.lower .source) .source
      [.cust 1, .cust 2, .sink]), p.2 ≤ G.upper p.1) → ¬ OnTime G [.source, .cust 1, .cust 2, .sink] := fun _ h => h
  refine ⟨late _ (by decide +kernel), ⟨_, rfl, ?_⟩, ?_⟩
  · rw [withinLimits_of rfl]
    decide +kernel
  · have : ∃ G', pruneGraph exLate [] true = .ok G' := ⟨_, rfl⟩
    obtain ⟨G', hG'⟩ := this
    refine ⟨G', hG', ?_⟩
    have key : (match pruneGraph exLate [] true with
      | .ok G' => decide ((¬ ∀ p ∈ [Node.cust 1, .cust 2, .sink].zip (arrivalsFrom G' (G'.lower .source) .source
          [.cust 1, .cust 2, .sink]), p.2 ≤ G'.upper p.1)) &&
        (match Cspy.formulate { G := G', weight := fun _ _ => -1, numStops := some 2, timeWindows := true } with
        | .ok m => decide (∀ p ∈ [Node.cust 1, .cust 2, .sink].inits, m.within (Cspy.consume
            { G := G', weight := fun _ _ => -1, numStops := some 2, timeWindows := true } {} .source p) = true)
        | .error _ => false)
      | .error _ => false) = true := by decide +kernel
    rw [hG'] at key
    simp only [Bool.and_eq_true, decide_eq_true_eq] at key
    obtain ⟨k1, k2⟩ := key
    refine ⟨late _ k1, ?_⟩
    cases hf : Cspy.formulate { G := G', weight := fun _ _ => -1, numStops := some 2, timeWindows := true } with
    | error e => rw [hf] at k2; simp at k2
    | ok m =>
      rw [hf] at k2
      refine ⟨m, rfl, ?_⟩
      rw [withinLimits_of rfl]
      simpa using k2

/-- `C19_prune_start` applies: without the service time at Source, the windows of `exLate` open at 60 after the preprocessing. -/
example : ∃ G', pruneGraph { exLate with service := fun _ => 0 } [] true = .ok G' ∧ G'.lower .source = 50 ∧
    G'.lower (.cust 1) = 60 ∧ Node.cust 1 ∈ G'.succ .source := by
  have : ∃ G', pruneGraph { exLate with service := fun _ => 0 } [] true = .ok G' := ⟨_, rfl⟩
  obtain ⟨G', hG'⟩ := this
  have key : (match pruneGraph { exLate with service := fun _ => 0 } [] true with
    | .ok G' => decide (G'.lower .source = 50 ∧ G'.lower (.cust 1) = 60 ∧ Node.cust 1 ∈ G'.succ .source)
    | .error _ => false) = true := by decide +kernel
  rw [hG'] at key
  exact ⟨G', hG', by simpa using key⟩

/-- **C19**, counterexample: customer 2 opens at 30; the trip there and back takes 25 (travel and service), is on time, and
`duration = 40`.  cspy limits the clock, not the duration, and rejects the route (it ends at 45). -/
theorem C19_duration_counterexample :
    ∃ q : Cspy, WellFormed q.G ∧ IsRoute q.G [.source, .cust 2, .sink] ∧ OnTime q.G [.source, .cust 2, .sink] ∧
      WithinStops q.numStops (stops [.source, .cust 2, .sink]).length ∧
      WithinCapacity q.caps q.vehicleType (load q.G [.source, .cust 2, .sink]) ∧
      Within q.duration (Spec.duration q.G [.source, .cust 2, .sink]) ∧
      ∃ m, q.formulate = .ok m ∧ ¬ WithinLimits q m [.source, .cust 2, .sink] := by
  refine ⟨{ exCspy with timeWindows := true, duration := some 40 }, exNet_wf, ?_, ?_, ?_, ?_, ?_, _, rfl, ?_⟩
  · exact (isSimpleRoute_routeOf (L := [.cust 2]) (by decide) (by decide)
      (by simp [Along, routeOf, exCspy, exNet])).1
  · show ∀ p ∈ _, _
    decide +kernel
  · intro n hn _
    cases hn
    decide
  · intro _
    exact ⟨8, rfl, by decide +kernel⟩
  · intro d hd _
    cases hd
    decide +kernel
  · rw [withinLimits_of rfl]
    decide +kernel

/-- A sound oracle that knows one path. -/
def exOracle (q : Cspy) (path : List Node) : Cspy.Oracle := fun m _ =>
  if q.custom = false ∧ m.within (q.consumed path) then some (legSum q.weight path, path) else none

theorem exOracle_sound {q : Cspy} {path : List Node} (hr : IsSimpleRoute q.G path) : CspySound q (exOracle q path) := by
  intro m e c p h
  simp only [exOracle] at h
  split at h
  · rename_i hcond
    simp only [Option.some.injEq, Prod.mk.injEq] at h
    obtain ⟨rfl, rfl⟩ := h
    obtain ⟨⟨mid, rfl, _, h2⟩, h3⟩ := hr
    refine ⟨rfl, ?_, h2, rfl, fun _ => h3, ?_⟩
    · rw [routeOf, ← List.cons_append, List.getLast?_concat]
    · unfold WithinLimits
      rw [if_neg (by simp [hcond.1])]
      exact hcond.2
  · cases h

/-- **C21**, counterexample (and an example for the rest): `duration = 38`, travel time 30, two services of 5: the route takes 40
and is returned, because the default resource function does not count service times. -/
theorem C21_service_counterexample :
    ∃ (q : Cspy) (oracle : Cspy.Oracle) (keys : List Node) (col : Column), WellFormed q.G ∧ CspySound q oracle ∧
      q.solve true keys oracle [] = .ok ([col], true) ∧ col.path = some [.source, .cust 1, .cust 2, .sink] ∧
      ¬ Within q.duration (Spec.duration q.G [.source, .cust 1, .cust 2, .sink]) := by
  refine ⟨{ exCspy with duration := some 38 }, exOracle { exCspy with duration := some 38 }
    [.source, .cust 1, .cust 2, .sink], [.cust 1, .cust 2],
    { name := .elem 1, path := some [.source, .cust 1, .cust 2, .sink], nodes := [.source, .cust 1, .cust 2, .sink],
      edges := [(.source, .cust 1), (.cust 1, .cust 2), (.cust 2, .sink)], cost := 3, vehicleType := 0 },
    exNet_wf, ?_, ?_, rfl, ?_⟩
  · exact exOracle_sound (isSimpleRoute_routeOf (L := [.cust 1, .cust 2]) (by decide) (by decide)
      (by simp [Along, routeOf, exCspy, exNet]))
  · decide +kernel
  · intro h
    exact absurd (h 38 rfl (by norm_num)) (by decide +kernel)

/-- **C22**, counterexample: two customers, no limits at all; the route that visits both has 3 legs and is excluded, since 4
nodes allow only 2. -/
theorem C22_counterexample :
    ∃ (q : Cspy) (r : List Node), WellFormed q.G ∧ IsSimpleRoute q.G r ∧ q.numStops = none ∧ q.caps = [] ∧ q.duration = none ∧
      q.custom = false ∧ ∃ m, q.formulate = .ok m ∧ ¬ WithinLimits q m r := by
  refine ⟨{ G := exNet, weight := fun _ _ => -1 }, routeOf [.cust 1, .cust 2], exNet_wf, ⟨exCspy_route, by decide⟩, rfl, rfl, rfl,
    rfl, _, rfl, ?_⟩
  exact C22_excludes rfl rfl (by decide)

/-- C22, the positive part: the route to one customer is accepted. -/
example : ∃ m, Cspy.formulate { G := exNet, weight := fun _ _ => -1 } = .ok m ∧
    WithinLimits { G := exNet, weight := fun _ _ => -1 } m (routeOf [.cust 1]) := by
  refine ⟨_, rfl, ?_⟩
  rw [C22_length_limit_partial rfl exNet_goods (by intro u v _; simp [exNet]) exNet_wf rfl rfl rfl rfl]
  decide

/-- A second limit nobody asked for: with distribution and collection, without time windows and `duration`, the clock (with
service times) is limited by the sum of all travel times.  Here every route needs more. -/
theorem C22_service_counterexample :
    ∃ (q : Cspy) (r : List Node), WellFormed q.G ∧ IsSimpleRoute q.G r ∧ q.numStops = some 2 ∧ q.duration = none ∧
      q.distributionCollection = true ∧ GoodsWithin q.G 8 r ∧ q.caps = [8] ∧
      ∃ m, q.formulate = .ok m ∧ ¬ WithinLimits q m r := by
  refine ⟨{ exCspy with G := { exNet with service := fun v => if v.isDepot then 0 else 100 }, distributionCollection := true },
    routeOf [.cust 1, .cust 2],
    ⟨exNet_wf.1, exNet_wf.2, exNet_wf.3, exNet_wf.4, exNet_wf.5, exNet_wf.6, exNet_wf.7⟩,
    isSimpleRoute_routeOf (by decide) (by decide) (by simp [Along, routeOf, exNet]), rfl, rfl, rfl, ?_, rfl, _, rfl, ?_⟩
  · have h8 : WithinLimits { exCspy with distributionCollection := true } ⟨3, 8, 60, 1, 8, 8⟩ (routeOf [.cust 1, .cust 2]) := by
      rw [routeOf, withinLimits_of rfl]
      decide +kernel
    have hf : Cspy.formulate { exCspy with distributionCollection := true } = .ok ⟨3, 8, 60, 1, 8, 8⟩ := by decide +kernel
    exact C20_goods_of_limits (q := { exCspy with distributionCollection := true }) exNet_wf hf rfl rfl rfl rfl rfl exNet_goods
      exCspy_route h8
  · rw [routeOf, withinLimits_of rfl]
    decide +kernel

end Vrpy
