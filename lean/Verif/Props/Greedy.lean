import Verif.Proofs.Greedy
import Verif.Proofs.RouteSets
import Mathlib.Tactic.NormNum

/-!
# C11: the greedy heuristic
-/

namespace Vrpy

open Spec

private theorem forward_mono (G : Net) (cfg : GreedyConfig) :
    ∀ (fuel fuel' : Nat) (s s' : GreedyState), fuel ≤ fuel' → greedyForward G cfg fuel s = .ok (some s') →
      greedyForward G cfg fuel' s = .ok (some s') := by
  intro fuel
  induction fuel with
  | zero => intro fuel' s s' _ h; simp [greedyForward] at h
  | succ fuel ih =>
    intro fuel' s s' hle h
    cases fuel' with
    | zero => omega
    | succ fuel' =>
      rw [greedyForward] at h ⊢
      cases h1 : greedyNext G cfg s with
      | error e => rw [h1] at h; simp at h
      | ok s1 =>
        rw [h1] at h
        simp only at h ⊢
        cases h2 : greedyUpdate G cfg s1 with
        | error e => rw [h2] at h; simp at h
        | ok s2 =>
          rw [h2] at h
          simp only at h ⊢
          by_cases h3 : s2.newNode = .sink
          · rw [if_pos h3] at h ⊢; exact h
          · rw [if_neg h3] at h ⊢
            exact ih fuel' s2 s' (by omega) h

private theorem loop_mono (G : Net) (cfg : GreedyConfig) (fwd fwd' : Nat) (hfwd : fwd ≤ fwd') :
    ∀ (fuel fuel' : Nat) (s s' : GreedyState), fuel ≤ fuel' → greedyLoop G cfg fwd fuel s = .ok (some s') →
      greedyLoop G cfg fwd' fuel' s = .ok (some s') := by
  intro fuel
  induction fuel with
  | zero => intro fuel' s s' _ h; simp [greedyLoop] at h
  | succ fuel ih =>
    intro fuel' s s' hle h
    cases fuel' with
    | zero => omega
    | succ fuel' =>
      rw [greedyLoop] at h ⊢
      by_cases hu : s.unprocessed = []
      · rw [if_pos hu] at h ⊢; exact h
      · rw [if_neg hu] at h ⊢
        cases h1 : greedyForward G cfg fwd { s with load := 0, stops := 0, time := 0, path := some [.source] } with
        | error e => rw [h1] at h; simp at h
        | ok o =>
          rw [h1] at h
          cases o with
          | none => simp at h
          | some s1 =>
            rw [forward_mono G cfg fwd fwd' _ _ hfwd h1]
            simp only at h ⊢
            by_cases h3 : (greedyStore s1).path = some [.source, .sink]
            · rw [if_pos h3] at h ⊢; exact h
            · rw [if_neg h3] at h ⊢
              exact ih fuel' _ s' (by omega) h

private theorem greedyRun_main (G : Net) (cfg : GreedyConfig) (hG : WellFormed G) (hD : DepotConnected G)
    (hK : CostsFor G 1) (hss : Node.sink ∈ G.succ .source) :
    ∃ (s : GreedyState) (Ls : List (List Node)),
      (∀ fuel, G.customers.length < fuel → greedyRun G cfg fuel = .ok (some (s.value, s.routes))) ∧
      GreedyOuter G cfg s Ls ∧
        ((s.unprocessed = [] ∧ ∀ L ∈ Ls, L ≠ []) ∨
         (∃ Ls0, Ls = Ls0 ++ [[]] ∧ (∀ L ∈ Ls0, L ≠ []) ∧ s.unprocessed ≠ [] ∧
          ∀ v ∈ s.unprocessed, ¬ GreedyFits G cfg 0 0 .source v)) := by
  have h0 : GreedyOuter G cfg { unprocessed := G.customers } [] :=
    ⟨rfl, by simp, by simp, by simp, by simp, by simp, by simp⟩
  obtain ⟨s, Ls, h1, h2, h3⟩ := greedyLoop_ok hD hG hK hss cfg (G.customers.length + 1) (by omega)
    (G.customers.length + 1) _ [] h0 (by simp) (by simp)
  refine ⟨s, Ls, ?_, h2, h3⟩
  intro fuel hf
  have := loop_mono G cfg _ fuel (by omega) _ fuel _ _ (by omega) h1
  rw [greedyRun, this]

/-- **C11, termination.** On every network with depot arcs the greedy heuristic stops, whatever the limits, and
raises nothing: beyond some number of loop passes more fuel never changes the (proper) result. -/
theorem C11_greedy_terminates (G : Net) (cfg : GreedyConfig) (hG : WellFormed G) (hD : DepotConnected G)
    (hK : CostsFor G 1) (hss : Node.sink ∈ G.succ .source) :
    ∃ n val rs, ∀ fuel, n ≤ fuel → greedyRun G cfg fuel = .ok (some (val, rs)) := by
  obtain ⟨s, Ls, h1, _⟩ := greedyRun_main G cfg hG hD hK hss
  exact ⟨G.customers.length + 1, _, _, fun fuel hf => h1 fuel (by omega)⟩

/-- **C11, feasibility and value.** The routes are simple Source-Sink routes of the network, no two share a customer,
each respects capacity, stop limit and duration (a Source-Sink route without customers is not subject to limits), and the reported value is
the total cost. -/
theorem C11_greedy_feasible (G : Net) (cfg : GreedyConfig) (hG : WellFormed G) (hD : DepotConnected G)
    (hK : CostsFor G 1) (hss : Node.sink ∈ G.succ .source)
    (hdem : G.demand .source = 0 ∧ G.demand .sink = 0) (hser : G.service .source = 0 ∧ G.service .sink = 0) :
    ∀ fuel val rs, greedyRun G cfg fuel = .ok (some (val, rs)) →
      (∀ r ∈ rs, IsSimpleRoute G r) ∧
      rs.Pairwise (fun r r' => ∀ v ∈ stops r, v ∉ stops r') ∧
      (∀ r ∈ rs, stops r ≠ [] → Within cfg.cap (load G r) ∧ Within cfg.duration (duration G r)) ∧
      (∀ r ∈ rs, ∀ m, cfg.numStops = some m → m ≠ 0 → (stops r).length ≤ m) ∧
      val = (rs.map (Spec.cost G 0)).sum := by
  intro fuel val rs hrun
  obtain ⟨s, Ls, h1, inv, _⟩ := greedyRun_main G cfg hG hD hK hss
  have hsame : val = s.value ∧ rs = s.routes := by
    have h2 := h1 (fuel + G.customers.length + 1) (by omega)
    unfold greedyRun at hrun h2
    cases hl : greedyLoop G cfg fuel fuel { unprocessed := G.customers } with
    | error e => rw [hl] at hrun; simp at hrun
    | ok o =>
      cases o with
      | none => rw [hl] at hrun; simp at hrun
      | some t =>
        rw [hl] at hrun
        rw [loop_mono G cfg _ (fuel + G.customers.length + 1) (by omega) _ (fuel + G.customers.length + 1) _ _
          (by omega) hl] at h2
        simp only [Except.ok.injEq, Option.some.injEq, Prod.mk.injEq] at hrun h2
        exact ⟨hrun.1.symm.trans h2.1, hrun.2.symm.trans h2.2⟩
  obtain ⟨rfl, rfl⟩ := hsame
  have hnd : (s.unprocessed ++ Ls.flatten).Nodup := inv.perm.nodup_iff.2 (hG.nodes_nodup.filter _)
  have hnd' := (List.nodup_append.1 hnd).2.1
  rw [List.nodup_flatten] at hnd'
  have hsub : ∀ L ∈ Ls, ∀ v ∈ L, v ∈ G.customers := by
    intro L hL v hv
    exact inv.perm.subset (List.mem_append.2 (Or.inr (List.mem_flatten.2 ⟨L, hL, hv⟩)))
  have hmem : ∀ r ∈ s.routes, ∃ L ∈ Ls, r = routeOf L := by
    intro r hr
    rw [inv.routes, List.mem_map] at hr
    obtain ⟨L, hL, rfl⟩ := hr
    exact ⟨L, hL, rfl⟩
  refine ⟨?_, ?_, ?_, ?_, ?_⟩
  · intro r hr
    obtain ⟨L, hL, rfl⟩ := hmem r hr
    exact isSimpleRoute_routeOf (hsub L hL) (hnd'.1 L hL) (inv.along L hL)
  · rw [inv.routes, List.pairwise_map]
    refine List.Pairwise.imp_of_mem ?_ hnd'.2
    intro a b ha hb hab v hva hvb
    rw [stops_routeOf (hsub a ha)] at hva
    rw [stops_routeOf (hsub b hb)] at hvb
    exact hab hva hvb
  · intro r hr hne
    obtain ⟨L, hL, rfl⟩ := hmem r hr
    rw [stops_routeOf (hsub L hL)] at hne
    constructor
    · intro c hc hc0
      have := inv.cap L hL c (active_eq_some.2 ⟨hc, hc0⟩) hne
      simpa [load, routeOf, hdem] using this
    · intro d hd hd0
      have := inv.dur L hL d (active_eq_some.2 ⟨hd, hd0⟩) hne
      have h' : duration G (routeOf L) = legSum G.time (routeOf L) + (L.map G.service).sum := by
        simp [duration, travel, routeOf, hser]
      rw [h']
      exact this
  · intro r hr m hm hm0
    obtain ⟨L, hL, rfl⟩ := hmem r hr
    rw [stops_routeOf (hsub L hL)]
    exact inv.le L hL m hm hm0
  · rw [inv.value, inv.routes, List.map_map]
    rfl

/-- **C11, coverage.** A customer whose round trip respects capacity and duration is visited exactly once. -/
theorem C11_greedy_covers (G : Net) (cfg : GreedyConfig) (hG : WellFormed G) (hD : DepotConnected G)
    (hK : CostsFor G 1) (hss : Node.sink ∈ G.succ .source)
    (hdem : G.demand .source = 0 ∧ G.demand .sink = 0) (hser : G.service .source = 0 ∧ G.service .sink = 0) :
    ∃ n val rs, (∀ fuel, n ≤ fuel → greedyRun G cfg fuel = .ok (some (val, rs))) ∧
      ∀ v ∈ G.customers, Within cfg.cap (load G [.source, v, .sink]) →
        Within cfg.duration (duration G [.source, v, .sink]) →
        (rs.flatten.filter (fun x => x = v)).length = 1 := by
  obtain ⟨s, Ls, h1, inv, hend⟩ := greedyRun_main G cfg hG hD hK hss
  refine ⟨G.customers.length + 1, _, _, fun fuel hf => h1 fuel (by omega), ?_⟩
  intro v hv hcap hdur
  have hnot : v ∉ s.unprocessed := by
    intro hin
    rcases hend with ⟨h, _⟩ | ⟨_, _, _, _, h⟩
    · rw [h] at hin; simp at hin
    · refine h v hin ⟨?_, ?_⟩
      · intro c hc
        obtain ⟨hc1, hc2⟩ := active_eq_some.1 hc
        have := hcap c hc1 hc2
        simpa [load, hdem] using this
      · intro d hd
        obtain ⟨hd1, hd2⟩ := active_eq_some.1 hd
        have := hdur d hd1 hd2
        simp [duration, travel, legSum, hser] at this
        linarith
  have hv' := mem_customers.1 hv
  have hnd : (s.unprocessed ++ Ls.flatten).Nodup := inv.perm.nodup_iff.2 (hG.nodes_nodup.filter _)
  rw [inv.routes, count_routeOfs Ls v hv'.2.1 hv'.2.2]
  apply filter_length_one (List.nodup_append.1 hnd).2.1
  have := inv.perm.symm.subset hv
  simpa [hnot] using this

/-! ## A concrete case -/

/-- Two customers with demands 2 and 3. -/
def exC11 : Net where
  nodes := [.source, .cust 1, .cust 2, .sink]
  succ := fun u => match u with
    | .source => [.cust 1, .cust 2, .sink]
    | .cust 1 => [.cust 2, .sink]
    | .cust 2 => [.cust 1, .sink]
    | _ => []
  demand := fun v => match v with | .cust 1 => 2 | .cust 2 => 3 | _ => 0
  collect := fun _ => 0
  service := fun v => if v.isDepot then 0 else 1
  lower := fun _ => 0
  upper := fun _ => 0
  freq := fun _ => 1
  request := fun _ => none
  cost := fun u _ => if u = .source then [7] else [4]
  time := fun _ _ => 2

theorem exC11_wf : WellFormed exC11 := by
  refine ⟨by decide, ?_, ?_, by decide, by decide, ?_, rfl⟩
  · intro u; simp only [exC11]; split <;> decide
  · intro u; simp only [exC11]; split <;> first | decide | simp
  · intro u; simp only [exC11]; split <;> decide

theorem exC11_depot : DepotConnected exC11 := by
  intro n hn
  simp only [exC11, List.mem_cons, Node.cust.injEq, reduceCtorEq, List.not_mem_nil, or_false, false_or] at hn
  rcases hn with rfl | rfl <;> decide

theorem exC11_costs : CostsFor exC11 1 := by
  intro u v _
  simp only [exC11]
  split <;> simp

/-- All hypotheses of the C11 theorems hold for `exC11`; with capacity 4 the greedy solution is two routes of total
value 22. -/
example : WellFormed exC11 ∧ DepotConnected exC11 ∧ CostsFor exC11 1 ∧ Node.sink ∈ exC11.succ .source ∧
    greedyRun exC11 { cap := some 4 } 9 =
      .ok (some (22, [[.source, .cust 1, .sink], [.source, .cust 2, .sink]])) :=
  ⟨exC11_wf, exC11_depot, exC11_costs, by decide, by decide +kernel⟩

/-- With capacity 2 customer 2 fits no vehicle: it is not visited, and the loop still ends, with an empty route. -/
example : greedyRun exC11 { cap := some 2 } 9 =
      .ok (some (18, [[.source, .cust 1, .sink], [.source, .sink]])) := by decide +kernel

end Vrpy
