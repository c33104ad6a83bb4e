import Verif.Proofs.GreedyPricing
import Verif.Props.Pricing
import Verif.SpecColumns

/-!
# C12, C13: randomised greedy pricing
-/

namespace Vrpy

open Spec

theorem encodes_graph {G : Net} {c : Column} {r : List Node} (hnd : r.Nodup) (h2 : 2 ≤ r.length)
    (hn : c.nodes = graphNodes (consecutive r)) (he : c.edges = graphEdges (consecutive r))
    (hc : sumEdgeCosts G c.vehicleType (graphEdges (consecutive r)) = .ok c.cost) : Encodes G c r := by
  have hp := graphEdges_perm (consecutive_nodup hnd)
  refine ⟨?_, by rw [he]; exact hp, ?_⟩
  · rw [hn]
    exact (List.perm_ext_iff_of_nodup (nodup_graphNodes _) hnd).2 (fun v => mem_graphNodes_consecutive h2 v)
  · obtain ⟨_, hc⟩ := sumEdgeCosts_ok.1 hc
    rw [hc, Spec.cost, legSum_eq]
    exact (hp.map _).sum_eq

/-- A simple path from Source to Sink is a simple route. -/
theorem simpleRoute_of_path {G : Net} (hG : WellFormed G) {p : List Node} (h1 : p.head? = some .source)
    (h2 : p.getLast? = some .sink) (hnd : p.Nodup) (hn : ∀ v ∈ p, v ∈ G.nodes)
    (ha : Along (fun u v => v ∈ G.succ u) p) : ∃ mid, p = routeOf mid ∧ (∀ v ∈ mid, v ∈ G.customers) ∧
      IsSimpleRoute G p := by
  cases p with
  | nil => simp at h1
  | cons a p =>
    simp only [List.head?_cons, Option.some.injEq] at h1
    subst h1
    rcases List.eq_nil_or_concat p with rfl | ⟨mid, b, rfl⟩
    · simp at h2
    · simp only [List.concat_eq_append] at *
      have hb : b = .sink := by simpa [List.getLast?_cons] using h2
      subst hb
      have hmid : ∀ v ∈ mid, v ∈ G.customers := by
        intro v hv
        refine mem_customers.2 ⟨hn v (by simp [hv]), ?_, ?_⟩
        · rintro rfl
          simp [hv] at hnd
        · rintro rfl
          have := (List.nodup_cons.1 hnd).2
          rw [List.nodup_append] at this
          exact this.2.2 _ hv _ (by simp) rfl
      refine ⟨mid, rfl, hmid, ⟨mid, rfl, ?_, ha⟩, hnd⟩
      intro v hv
      obtain ⟨a, b, c⟩ := mem_customers.1 (hmid v hv)
      refine ⟨?_, a⟩
      cases v with
      | source => exact absurd rfl b
      | sink => exact absurd rfl c
      | cust n => exact ⟨n, rfl⟩

/-- The number of customers is the limit on the number of stops. -/
def Spec.AtStopLimit (lim : Option Nat) (r : List Node) : Prop := lim = some (stops r).length ∧ stops r ≠ []

/-- The facts about one accepted run. -/
theorem run_facts {cfg : GreedyPricing} (hG : WellFormed cfg.G) (hd1 : cfg.G.demand .source = 0)
    (hd2 : cfg.G.demand .sink = 0) {dir : Dir} {rand : Nat → Nat} {fuel : Nat} {s : GPState}
    (h : cfg.run dir rand fuel = some s) (hacc : cfg.accepted s = true) :
    IsSimpleRoute cfg.G s.path ∧ Within cfg.cap (load cfg.G s.path) ∧
      WithinStops cfg.numStops (Spec.stops s.path).length ∧
      ((AtStopLimit cfg.numStops s.path ∧ Within cfg.duration (travel cfg.G s.path.dropLast) ∧
          legSum cfg.weight s.path.dropLast < 0) ∨
        (¬ AtStopLimit cfg.numStops s.path ∧ Within cfg.duration (travel cfg.G s.path) ∧
          legSum cfg.weight s.path < 0)) := by
  have hneg : s.weight < 0 := by
    unfold GreedyPricing.accepted at hacc
    cases hv : s.newNode with
    | none => simp [hv] at hacc
    | some v =>
      simp only [hv, Bool.and_eq_true, decide_eq_true_eq] at hacc
      exact hacc.2
  have hw : ∀ {lim : Option ℚ} {x : ℚ}, (∀ c, active lim = some c → x ≤ c) → Within lim x :=
    fun hx d hd hd0 => hx d (active_eq_some.2 ⟨hd, hd0⟩)
  rcases GreedyPricing.loop_ended hG _ _ _ (GreedyPricing.start_open hG hd1 hd2 dir) h hacc with
    ⟨hP, hs0, hh, hl, hlim⟩ | ⟨rfl, hns, hs0, s0, u, hP, hsink, hu, hus, huS, rfl⟩
  · obtain ⟨mid, hp, hmid, hsimple⟩ := simpleRoute_of_path hG hh hl hP.nodup hP.nodes hP.along
    have hst : Spec.stops s.path = mid := by rw [hp, stops_routeOf hmid]
    have hlen : s.stops = mid.length + 1 := by
      have := hP.stops
      rw [hp] at this
      simp [routeOf] at this
      omega
    refine ⟨hsimple, ?_, ?_, Or.inr ⟨?_, ?_, ?_⟩⟩
    · apply hw
      intro c hc
      have := hP.cap hs0 c hc
      rw [hP.load] at this
      exact this
    · intro m hm hm0
      rw [hst]
      rcases hlim m hm with h0 | h0
      · exact absurd h0 hm0
      · omega
    · rintro ⟨h1, h2⟩
      rw [hst] at h1 h2
      rcases hlim _ h1 with h0 | h0
      · exact h2 (List.length_eq_zero_iff.1 h0)
      · omega
    · apply hw
      intro c hc
      have := hP.dur hs0 c hc
      rw [hP.time] at this
      exact this
    · rw [← hP.weight]; exact hneg
  · simp only at *
    obtain ⟨xs, hxs⟩ : ∃ xs, s0.path = xs ++ [u] := by
      rcases List.eq_nil_or_concat s0.path with h0 | ⟨xs, b, h0⟩
      · exact absurd h0 hP.ne
      · refine ⟨xs, ?_⟩
        rw [List.concat_eq_append] at h0
        rw [h0] at hu ⊢
        simp at hu
        rw [hu]
    have hnd : (s0.path ++ [Node.sink]).Nodup := by
      rw [List.nodup_append]
      exact ⟨hP.nodup, by simp, fun a ha b hb => by simp at hb; subst hb; exact fun he => hsink (he ▸ ha)⟩
    have halong : Along (fun u v => v ∈ cfg.G.succ u) (s0.path ++ [Node.sink]) := by
      rw [along_iff, hxs, List.append_assoc, List.cons_append, List.nil_append, consecutive_append_two]
      intro a b hab
      rcases List.mem_append.1 hab with hab | hab
      · have := (along_iff _ _).1 hP.along a b
        rw [hxs] at this
        exact this hab
      · simp at hab
        rw [hab.1, hab.2]
        exact huS
    have hnodes : ∀ v ∈ s0.path ++ [Node.sink], v ∈ cfg.G.nodes := by
      intro v hv
      rcases List.mem_append.1 hv with hv | hv
      · exact hP.nodes v hv
      · simp at hv; subst hv; exact hG.sink_mem
    have hhead : (s0.path ++ [Node.sink]).head? = some .source := by
      rw [List.head?_append, hP.fwd rfl]; rfl
    obtain ⟨mid, hp, hmid, hsimple⟩ := simpleRoute_of_path hG hhead (by simp) hnd hnodes halong
    have hst : Spec.stops (s0.path ++ [Node.sink]) = mid := by rw [hp, stops_routeOf hmid]
    have hlen : s0.stops = mid.length := by
      have h1 := hP.stops
      have h2 := congrArg List.length hp
      simp [routeOf] at h2
      omega
    have hdrop : (s0.path ++ [Node.sink]).dropLast = s0.path := by simp
    refine ⟨hsimple, ?_, ?_, Or.inl ⟨⟨?_, ?_⟩, ?_, ?_⟩⟩
    · apply hw
      intro c hc
      have := hP.cap hs0 c hc
      rw [hP.load] at this
      simp only [load, List.map_append, List.map_cons, List.map_nil, List.sum_append, List.sum_cons, List.sum_nil, hd2,
        add_zero]
      exact this
    · intro m hm hm0
      rw [hst]
      rw [hns] at hm
      cases hm
      omega
    · rw [hst, hns, hlen]
    · rw [hst]
      intro h0
      rw [h0] at hlen
      exact hs0 (by simpa using hlen)
    · apply hw
      intro c hc
      have := hP.dur hs0 c hc
      rw [hP.time] at this
      rw [hdrop]
      exact this
    · rw [hdrop, ← hP.weight]; exact hneg

/-- The columns added by `solve` come from accepted runs. -/
theorem solve_columns {cfg : GreedyPricing} {keys : List Node} {rand : Nat → Nat → Nat} {fuel nRuns : Nat}
    {cols cols' : List Column} {more : Bool} (h : cfg.solve keys rand fuel nRuns cols = .ok (cols', more)) :
    ∃ new, cols' = cols ++ new ∧ (more = true ↔ new ≠ []) ∧ ∀ c ∈ new, c.vehicleType = cfg.vehicleType ∧
      ∃ dir rd s, cfg.run dir rd fuel = some s ∧ cfg.accepted s = true ∧
        c.nodes = graphNodes (consecutive s.path) ∧ c.edges = graphEdges (consecutive s.path) ∧
        sumEdgeCosts cfg.G c.vehicleType (graphEdges (consecutive s.path)) = .ok c.cost := by
  have key := foldlM_inv (P := fun st : List Column × Bool => ∃ new, st.1 = cols ++ new ∧ (st.2 = true ↔ new ≠ []) ∧
      ∀ c ∈ new, c.vehicleType = cfg.vehicleType ∧
      ∃ dir rd s, cfg.run dir rd fuel = some s ∧ cfg.accepted s = true ∧
        c.nodes = graphNodes (consecutive s.path) ∧ c.edges = graphEdges (consecutive s.path) ∧
        sumEdgeCosts cfg.G c.vehicleType (graphEdges (consecutive s.path)) = .ok c.cost) _ _ _
      ⟨[], by simp, by simp, by simp⟩ ?_ h
  · exact key
  · rintro st job st' _ ⟨new, h1, h2, h3⟩ hstep
    unfold GreedyPricing.attempt at hstep
    cases hr : cfg.run job.1 job.2 fuel with
    | none => simp only [hr, Except.ok.injEq] at hstep; subst hstep; exact ⟨new, h1, h2, h3⟩
    | some s =>
      simp only [hr] at hstep
      by_cases hacc : cfg.accepted s = true
      · rw [if_pos hacc] at hstep
        unfold GreedyPricing.addRoute at hstep
        simp only at hstep
        cases hs : sumEdgeCosts cfg.G cfg.vehicleType (graphEdges (consecutive s.path)) with
        | error e => simp [hs] at hstep
        | ok c =>
          simp only [hs] at hstep
          split at hstep
          · cases hstep
          · rename_i cols1 hcols
            split at hcols
            · cases hcols
            · simp only [Except.ok.injEq] at hcols hstep
              subst hcols
              subst hstep
              refine ⟨new ++ [_], by rw [h1, List.append_assoc], by simp, ?_⟩
              intro c' hc'
              rcases List.mem_append.1 hc' with hc' | hc'
              · exact h3 c' hc'
              · simp only [List.mem_singleton] at hc'
                subst hc'
                exact ⟨rfl, job.1, job.2, s, hr, hacc, rfl, rfl, hs⟩
      · rw [if_neg hacc] at hstep
        simp only [Except.ok.injEq] at hstep
        subst hstep
        exact ⟨new, h1, h2, h3⟩

theorem path_length {G : Net} {p : List Node} (h : IsSimpleRoute G p) : 2 ≤ p.length := by
  obtain ⟨⟨mid, rfl, _⟩, _⟩ := h
  simp [routeOf]

/-- **C12**, partial.  Every column added by the randomised greedy pricing stands for a simple route of the network
that respects the capacity and the number of stops, and, if it has fewer customers than `num_stops`, has a travel time
within `duration`; all random choices are allowed.  Missing from the full claim: service times are ignored, and the
last leg of routes with `num_stops` customers is not counted (see the counterexamples). -/
theorem C12_feasible_partial {cfg : GreedyPricing} (hG : WellFormed cfg.G) (hd1 : cfg.G.demand .source = 0)
    (hd2 : cfg.G.demand .sink = 0) {keys : List Node} {rand : Nat → Nat → Nat} {fuel nRuns : Nat}
    {cols cols' : List Column} {more : Bool} (h : cfg.solve keys rand fuel nRuns cols = .ok (cols', more)) :
    ∃ new, cols' = cols ++ new ∧ ∀ c ∈ new, c.vehicleType = cfg.vehicleType ∧ ∃ r, Encodes cfg.G c r ∧
      IsSimpleRoute cfg.G r ∧ Within cfg.cap (load cfg.G r) ∧ WithinStops cfg.numStops (stops r).length ∧
      (¬ AtStopLimit cfg.numStops r → Within cfg.duration (travel cfg.G r)) ∧
      (AtStopLimit cfg.numStops r → Within cfg.duration (travel cfg.G r.dropLast)) := by
  obtain ⟨new, h1, _, h3⟩ := solve_columns h
  refine ⟨new, h1, ?_⟩
  intro c hc
  obtain ⟨hk, dir, rd, s, hrun, hacc, hn, he, hcost⟩ := h3 c hc
  obtain ⟨a, b, c1, d⟩ := run_facts hG hd1 hd2 hrun hacc
  refine ⟨hk, s.path, encodes_graph a.2 (path_length a) hn he hcost, a, b, c1, ?_, ?_⟩
  · intro hno
    rcases d with ⟨h, _⟩ | ⟨_, h, _⟩
    · exact absurd h hno
    · exact h
  · intro hyes
    rcases d with ⟨_, h, _⟩ | ⟨h, _⟩
    · exact h
    · exact absurd hyes h

/-- **C12**, partial, the common case: with no stop limit and no service times the duration limit is respected. -/
theorem C12_duration_partial {cfg : GreedyPricing} (hG : WellFormed cfg.G) (hd1 : cfg.G.demand .source = 0)
    (hd2 : cfg.G.demand .sink = 0) (hstops : cfg.numStops = none) (hserv : ∀ v, cfg.G.service v = 0)
    {keys : List Node} {rand : Nat → Nat → Nat} {fuel nRuns : Nat}
    {cols cols' : List Column} {more : Bool} (h : cfg.solve keys rand fuel nRuns cols = .ok (cols', more)) :
    ∃ new, cols' = cols ++ new ∧ ∀ c ∈ new, ∃ r, Encodes cfg.G c r ∧
      IsSimpleRoute cfg.G r ∧ Within cfg.cap (load cfg.G r) ∧ Within cfg.duration (duration cfg.G r) := by
  obtain ⟨new, h1, h2⟩ := C12_feasible_partial hG hd1 hd2 h
  refine ⟨new, h1, fun c hc => ?_⟩
  obtain ⟨_, r, e1, e2, e3, _, e5, _⟩ := h2 c hc
  refine ⟨r, e1, e2, e3, ?_⟩
  have : duration cfg.G r = travel cfg.G r := by
    have h0 : (r.map cfg.G.service).sum = 0 := List.sum_eq_zero (by simp [hserv])
    rw [duration, h0, add_zero]
  rw [this]
  exact e5 (by rintro ⟨hh, _⟩; rw [hstops] at hh; cases hh)

/-- **C12**: no run is cut short by the fuel of the model. -/
theorem C12_runs_terminate {cfg : GreedyPricing} (hG : WellFormed cfg.G) (hd1 : cfg.G.demand .source = 0)
    (hd2 : cfg.G.demand .sink = 0) (dir : Dir) (rand : Nat → Nat) {fuel : Nat} (hf : cfg.G.nodes.length ≤ fuel) :
    ∃ s, cfg.run dir rand fuel = some s := by
  apply GreedyPricing.loop_terminates hG _ _ (GreedyPricing.start_open hG hd1 hd2 dir).toPartial
  simp only [List.length_cons, List.length_nil]
  omega

/-- **C13**, partial.  If the weights are the reduced costs, every column with fewer customers than `num_stops` has
negative reduced cost; of one with `num_stops` customers this is only known without the last leg. -/
theorem C13_negative_reduced_cost_partial {cfg : GreedyPricing} (hG : WellFormed cfg.G)
    (hd1 : cfg.G.demand .source = 0) (hd2 : cfg.G.demand .sink = 0) {d : Duals} (hnd : (d.visit.map Prod.fst).Nodup)
    (hs : Node.source ∉ d.visit.map Prod.fst) (hw : reducedCosts cfg.G d cfg.vehicleType none = .ok cfg.weight)
    {keys : List Node} {rand : Nat → Nat → Nat} {fuel nRuns : Nat}
    {cols cols' : List Column} {more : Bool} (h : cfg.solve keys rand fuel nRuns cols = .ok (cols', more)) :
    ∃ new, cols' = cols ++ new ∧ (more = true ↔ new ≠ []) ∧ ∀ c ∈ new, ∃ r, Encodes cfg.G c r ∧ IsSimpleRoute cfg.G r ∧
      (¬ AtStopLimit cfg.numStops r → c.cost - ((stops r).map (fun v => (dget d.visit v).getD 0)).sum -
        (d.fleet.getD []).getD cfg.vehicleType 0 < 0) ∧
      (AtStopLimit cfg.numStops r → legSum cfg.weight r.dropLast < 0) := by
  obtain ⟨new, h1, hmore, h3⟩ := solve_columns h
  refine ⟨new, h1, hmore, ?_⟩
  intro c hc
  obtain ⟨hk, dir, rd, s, hrun, hacc, hn, he, hcost⟩ := h3 c hc
  obtain ⟨a, b, c1, d'⟩ := run_facts hG hd1 hd2 hrun hacc
  have henc := encodes_graph a.2 (path_length a) hn he hcost
  refine ⟨s.path, henc, a, ?_, ?_⟩
  · intro hno
    rcases d' with ⟨h, _⟩ | ⟨_, _, h⟩
    · exact absurd h hno
    · rw [henc.cost, hk, ← C14_reduced_costs hG hnd hs hw a.1]
      exact h
  · intro hyes
    rcases d' with ⟨_, _, h⟩ | ⟨h, _⟩
    · exact h
    · exact absurd hyes h

/-- One customer: Source, 1, Sink. -/
private def exGreedyNet (toSink service back : ℚ) : Net where
  nodes := [.source, .cust 1, .sink]
  succ := fun u => match u with
    | .source => [.cust 1, .sink]
    | .cust 1 => [.sink]
    | _ => []
  demand := fun v => if v = .cust 1 then 1 else 0
  service := fun v => if v = .cust 1 then service else 0
  cost := fun _ v => [if v = .sink then toSink else 1]
  time := fun _ v => if v = .sink then back else 1

private theorem exGreedyNet_wf (a b c : ℚ) : WellFormed (exGreedyNet a b c) := by
  refine ⟨by simp [exGreedyNet], ?_, ?_, by simp [exGreedyNet], by simp [exGreedyNet], ?_, rfl⟩
  · intro u; simp only [exGreedyNet]; split <;> simp
  · intro u v; simp only [exGreedyNet]; split <;> simp <;> tauto
  · intro u; simp only [exGreedyNet]; split <;> simp

/-- The weights of the network for dual 3 on customer 1. -/
private def exWeight (toSink : ℚ) : Node → Node → ℚ := fun u v =>
  (if v = .sink then toSink else 1) - if u = .cust 1 then 3 else 0

/-- The route Source, 1, Sink as the first column. -/
private def exColumn (c : ℚ) : Column where
  name := .num 1
  nodes := [.source, .cust 1, .sink]
  edges := [(.source, .cust 1), (.cust 1, .sink)]
  cost := c
  vehicleType := 0

/-- A run meeting the hypotheses of C12 and C13: both searches find the route of reduced cost 1+1-3 = -1. -/
example : GreedyPricing.solve { G := exGreedyNet 1 0 1, weight := exWeight 1, cap := some 5, duration := some 2 }
      [.cust 1] (fun _ _ => 0) 3 1 [] = .ok ([exColumn 2, { exColumn 2 with name := .num 2 }], true) ∧
    (∃ w, reducedCosts (exGreedyNet 1 0 1) { visit := [(.cust 1, 3)] } 0 none = .ok w ∧
      w .source (.cust 1) = exWeight 1 .source (.cust 1) ∧ w (.cust 1) .sink = exWeight 1 (.cust 1) .sink) :=
  ⟨by decide +kernel, _, rfl, by decide +kernel, by decide +kernel⟩

/-- **C12**, counterexample for service times: `duration = 2` and a service time of 100, and the route is added. -/
theorem C12_service_counterexample :
    GreedyPricing.solve { G := exGreedyNet 1 100 1, weight := exWeight 1, duration := some 2 } [.cust 1] (fun _ _ => 0) 3 1
      [] = .ok ([exColumn 2, { exColumn 2 with name := .num 2 }], true) ∧ WellFormed (exGreedyNet 1 100 1) ∧
    ¬ Within (some 2) (duration (exGreedyNet 1 100 1) [.source, .cust 1, .sink]) := by
  refine ⟨by decide +kernel, exGreedyNet_wf _ _ _, ?_⟩
  intro h
  exact absurd (h 2 rfl (by decide)) (by decide +kernel)

/-- **C12**, counterexample for the last leg: with `num_stops = 1` the way back to Sink, which takes 100, is not
compared with `duration = 2`. -/
theorem C12_last_leg_counterexample :
    ∃ w, reducedCosts (exGreedyNet 1 0 100) { visit := [(.cust 1, 3)], fleet := some [2] } 0 none = .ok w ∧
      GreedyPricing.solve { G := exGreedyNet 1 0 100, weight := w, duration := some 2, numStops := some 1 } [.cust 1]
        (fun _ _ => 0) 3 1 [] = .ok ([exColumn 2], true) ∧
      WellFormed (exGreedyNet 1 0 100) ∧
      ¬ Within (some 2) (travel (exGreedyNet 1 0 100) [.source, .cust 1, .sink]) := by
  refine ⟨_, rfl, by decide +kernel, exGreedyNet_wf _ _ _, ?_⟩
  intro h
  exact absurd (h 2 rfl (by decide)) (by decide +kernel)

/-- **C13**, counterexample at the stop limit: with a fleet dual of 2, `num_stops = 1` and a way back that costs 100
the column added has reduced cost 1 + 100 - 3 - 2 = 96. -/
theorem C13_last_leg_counterexample :
    ∃ w, reducedCosts (exGreedyNet 100 0 1) { visit := [(.cust 1, 3)], fleet := some [2] } 0 none = .ok w ∧
      GreedyPricing.solve { G := exGreedyNet 100 0 1, weight := w, numStops := some 1 } [.cust 1] (fun _ _ => 0) 3 1
        [] = .ok ([exColumn 101], true) ∧
      legSum w [.source, .cust 1, .sink] = 96 ∧ WellFormed (exGreedyNet 100 0 1) :=
  ⟨_, rfl, by decide +kernel, by decide +kernel, exGreedyNet_wf _ _ _⟩

end Vrpy
