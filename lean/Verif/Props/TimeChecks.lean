import Verif.Props.EndToEndDive
import Verif.Props.Reports

/-!
# C67: `check_arrival_time()` and `check_departure_time()`
-/

namespace Vrpy

open Spec

/-! ## What the checks accept -/

/-- The nodes of a route with the times they are reached at. -/
def Spec.timesAlong (H : Net) (r : List Node) : List (Node × ℚ) :=
  (.source, H.lower .source) :: r.tail.zip (arrivalsFrom H (H.lower .source) .source r.tail)

theorem arrivalStep_keys {H : Net} {d d' : Dict Node ℚ} {e : Node × Node} (hd : (d.map Prod.fst).Nodup)
    (h : arrivalStep H d e = .ok d') : (d'.map Prod.fst).Nodup := by
  unfold arrivalStep at h
  split at h
  · cases h
  · split at h
    · cases h
    · simp only [Except.ok.injEq] at h
      rw [← h, dset_keys]
      split
      · exact hd
      · rename_i hn
        exact List.nodup_append.2 ⟨hd, by simp, by
          intro a ha b hb hab
          rw [List.mem_singleton] at hb
          exact hn (hb ▸ hab ▸ ha)⟩

theorem departureStep_keys {H : Net} {arr d d' : Dict Node ℚ} {e : Node × Node} (hd : (d.map Prod.fst).Nodup)
    (h : departureStep H arr d e = .ok d') : (d'.map Prod.fst).Nodup := by
  unfold departureStep at h
  split at h
  · cases h
  · simp only [Except.ok.injEq] at h
    rw [← h, dset_keys]
    split
    · exact hd
    · rename_i hn
      exact List.nodup_append.2 ⟨hd, by simp, by
        intro a ha b hb hab
        rw [List.mem_singleton] at hb
        exact hn (hb ▸ hab ▸ ha)⟩

theorem zip_of_map {f : Node → Option ℚ} {l : List Node} {ts : List ℚ} (h : l.map f = ts.map some) (v : Node) (t : ℚ) :
    (v, t) ∈ l.zip ts ↔ v ∈ l ∧ f v = some t := by
  induction l generalizing ts with
  | nil => simp
  | cons x l ih =>
    cases ts with
    | nil => simp at h
    | cons s ts =>
      simp only [List.map_cons, List.cons.injEq] at h
      rw [List.zip_cons_cons, List.mem_cons, ih h.2, List.mem_cons]
      constructor
      · rintro (h0 | h0)
        · simp only [Prod.mk.injEq] at h0
          exact ⟨Or.inl h0.1, by rw [h0.1, h0.2]; exact h.1⟩
        · exact ⟨Or.inr h0.1, h0.2⟩
      · rintro ⟨rfl | h0, h1⟩
        · rw [h.1] at h1
          exact Or.inl (by simpa using h1.symm)
        · exact Or.inr ⟨h0, h1⟩

/-- The arrival times of a simple route are the times along it. -/
theorem arrivalRoute_times {H : Net} {r : List Node} (hr : IsSimpleRoute H r) :
    ∃ d, arrivalRoute H r = .ok d ∧ ∀ v t, (v, t) ∈ d ↔ (v, t) ∈ timesAlong H r := by
  obtain ⟨d, h1, h2, h3, _, h5⟩ := arrival_facts hr
  have hnd : (d.map Prod.fst).Nodup := by
    unfold arrivalRoute at h1
    exact foldlM_inv (P := fun d => (d.map Prod.fst).Nodup) _ _ _ (by simp) (fun _ _ _ _ hb he => arrivalStep_keys hb he) h1
  refine ⟨d, h1, fun v t => ?_⟩
  have hmem : (v, t) ∈ d ↔ dget d v = some t := ⟨fun h => dget_of_mem hnd h, fun h => mem_of_dget h⟩
  obtain ⟨⟨mid, rfl, _, _⟩, hrn⟩ := hr
  rw [hmem, timesAlong, List.mem_cons, zip_of_map h5]
  constructor
  · intro h
    have hv : v ∈ routeOf mid := (h2 v).1 (by rw [h]; rfl)
    rcases List.mem_cons.1 hv with rfl | hv
    · rw [h3] at h
      exact Or.inl (by simpa using h.symm)
    · exact Or.inr ⟨hv, h⟩
  · rintro (h | h)
    · simp only [Prod.mk.injEq] at h
      rw [h.1, h.2, h3]
    · exact h.2

/-- The departure times of a simple route: those of arrival plus service; the opening time at Source. -/
theorem departureRoute_times {H : Net} {r : List Node} (hr : IsSimpleRoute H r) :
    ∃ d, departureRoute H r = .ok d ∧ ∀ v t, (v, t) ∈ d ↔ (v = .source ∧ t = H.lower .source) ∨
      ∃ s, (v, s) ∈ r.tail.zip (arrivalsFrom H (H.lower .source) .source r.tail) ∧ t = s + H.service v := by
  obtain ⟨a, h1, h2, h3, _, h5⟩ := arrival_facts hr
  obtain ⟨⟨mid, rfl, _, _⟩, hrn⟩ := hr
  obtain ⟨d, e1, e2, e3⟩ := departure_fold (H := H) a (mid ++ [Node.sink]) .source [(.source, H.lower .source)]
    (fun x hx => (h2 x).2 (by rw [routeOf]; exact List.mem_cons_of_mem _ hx)) hrn
  have hd : departureRoute H (routeOf mid) = .ok d := by
    unfold departureRoute
    rw [h1]
    exact e1
  have hnd : (d.map Prod.fst).Nodup :=
    foldlM_inv (P := fun d => (d.map Prod.fst).Nodup) _ _ _ (by simp) (fun _ _ _ _ hb he => departureStep_keys hb he) e1
  refine ⟨d, hd, fun v t => ?_⟩
  have hmem : (v, t) ∈ d ↔ dget d v = some t := ⟨fun h => dget_of_mem hnd h, fun h => mem_of_dget h⟩
  have hsrc : dget d .source = some (H.lower .source) := by
    rw [e2 _ (List.nodup_cons.1 hrn).1]; simp [dget]
  have hns : Node.source ∉ mid ++ [Node.sink] := (List.nodup_cons.1 hrn).1
  rw [hmem]
  constructor
  · intro h
    by_cases hv : v ∈ mid ++ [Node.sink]
    · obtain ⟨s, k1, k2⟩ := e3 v hv
      rw [k2] at h
      exact Or.inr ⟨s, (zip_of_map h5 v s).2 ⟨hv, k1⟩, by simpa using h.symm⟩
    · rw [e2 v hv] at h
      by_cases hs : v = .source
      · subst hs
        exact Or.inl ⟨rfl, by simpa [dget] using h.symm⟩
      · simp [dget, hs] at h
  · rintro (⟨rfl, rfl⟩ | ⟨s, hs, rfl⟩)
    · exact hsrc
    · obtain ⟨k1, k2⟩ := (zip_of_map h5 v s).1 hs
      obtain ⟨x, k3, k4⟩ := e3 v k1
      rw [k2] at k3
      cases k3
      exact k4

theorem arrivalTime_ok {H : Net} {S : Solution} (hr : ∀ i r, (i, r) ∈ S.routes → IsSimpleRoute H r) :
    ∃ A, arrivalTime H true S = .ok A ∧ ∀ i d, (i, d) ∈ A ↔ ∃ r, (i, r) ∈ S.routes ∧ arrivalRoute H r = .ok d := by
  obtain ⟨A, hA⟩ : ∃ A, S.routes.mapM (arrivalEntry H) = .ok A := by
    refine py_mapM_total ?_
    rintro ⟨i, r⟩ hir
    obtain ⟨d, hd, _⟩ := arrivalRoute_times (hr i r hir)
    exact ⟨(i, d), by simp [arrivalEntry, hd]⟩
  refine ⟨A, by simpa [arrivalTime] using hA, ?_⟩
  have hall := py_mapM_ok.1 hA
  clear hA hr
  generalize S.routes = l at hall
  intro i d
  induction hall with
  | nil => simp
  | @cons x y l A hx _ ih =>
    obtain ⟨j, r⟩ := x
    unfold arrivalEntry at hx
    cases hd : arrivalRoute H r with
    | error e => simp [hd] at hx
    | ok z =>
      simp only [hd, Except.ok.injEq] at hx
      subst hx
      rw [List.mem_cons, ih]
      constructor
      · rintro (h | ⟨r', h1, h2⟩)
        · simp only [Prod.mk.injEq] at h
          exact ⟨r, by simp [h.1], by rw [h.2]; exact hd⟩
        · exact ⟨r', List.mem_cons_of_mem _ h1, h2⟩
      · rintro ⟨r', h1, h2⟩
        rcases List.mem_cons.1 h1 with h1 | h1
        · simp only [Prod.mk.injEq] at h1
          rw [h1.2, hd] at h2
          cases h2
          exact Or.inl (by rw [h1.1])
        · exact Or.inr ⟨r', h1, h2⟩

theorem departureTime_ok {H : Net} {S : Solution} (hr : ∀ i r, (i, r) ∈ S.routes → IsSimpleRoute H r) :
    ∃ A, departureTime H true S = .ok A ∧ ∀ i d, (i, d) ∈ A ↔ ∃ r, (i, r) ∈ S.routes ∧ departureRoute H r = .ok d := by
  obtain ⟨A, hA⟩ : ∃ A, S.routes.mapM (departureEntry H) = .ok A := by
    refine py_mapM_total ?_
    rintro ⟨i, r⟩ hir
    obtain ⟨d, hd, _⟩ := departureRoute_times (hr i r hir)
    exact ⟨(i, d), by simp [departureEntry, hd]⟩
  refine ⟨A, by simpa [departureTime] using hA, ?_⟩
  have hall := py_mapM_ok.1 hA
  clear hA hr
  generalize S.routes = l at hall
  intro i d
  induction hall with
  | nil => simp
  | @cons x y l A hx _ ih =>
    obtain ⟨j, r⟩ := x
    unfold departureEntry at hx
    cases hd : departureRoute H r with
    | error e => simp [hd] at hx
    | ok z =>
      simp only [hd, Except.ok.injEq] at hx
      subst hx
      rw [List.mem_cons, ih]
      constructor
      · rintro (h | ⟨r', h1, h2⟩)
        · simp only [Prod.mk.injEq] at h
          exact ⟨r, by simp [h.1], by rw [h.2]; exact hd⟩
        · exact ⟨r', List.mem_cons_of_mem _ h1, h2⟩
      · rintro ⟨r', h1, h2⟩
        rcases List.mem_cons.1 h1 with h1 | h1
        · simp only [Prod.mk.injEq] at h1
          rw [h1.2, hd] at h2
          cases h2
          exact Or.inl (by rw [h1.1])
        · exact Or.inr ⟨r', h1, h2⟩

theorem guarded_ok {p q : Prop} [Decidable p] [Decidable q] {e e' : PyErr} :
    (if ¬ p then .error e else if q then .ok () else .error e' : Py Unit) = .ok () ↔ p ∧ q := by
  by_cases hp : p <;> by_cases hq : q <;> simp [hp, hq]

/-- **C67**, what the checks say.  For simple routes of the network of the reports, the times are computed; `check_arrival_time`
passes exactly if every node of every route (Source included) is in the pruned graph `G` and reached within the window that it has
there; `check_departure_time` exactly if every node is in `G` and not left before it opens there. -/
theorem C67_checks_exact {H G : Net} {S : Solution} (hr : ∀ i r, (i, r) ∈ S.routes → IsSimpleRoute H r) :
    ∃ A D, arrivalTime H true S = .ok A ∧ departureTime H true S = .ok D ∧
      (checkArrivalTime G A = .ok () ↔ ∀ i r, (i, r) ∈ S.routes → ∀ p ∈ timesAlong H r,
        p.1 ∈ G.nodes ∧ G.lower p.1 ≤ p.2 ∧ p.2 ≤ G.upper p.1) ∧
      (checkDepartureTime G D = .ok () ↔ ∀ i r, (i, r) ∈ S.routes → (.source ∈ G.nodes ∧ G.lower .source ≤ H.lower .source) ∧
        ∀ p ∈ r.tail.zip (arrivalsFrom H (H.lower .source) .source r.tail), p.1 ∈ G.nodes ∧ G.lower p.1 ≤ p.2 + H.service p.1) := by
  obtain ⟨A, hA, hmA⟩ := arrivalTime_ok hr
  obtain ⟨D, hD, hmD⟩ := departureTime_ok hr
  refine ⟨A, D, hA, hD, ?_, ?_⟩
  · unfold checkArrivalTime
    rw [forM_ok_iff]
    constructor
    · rintro h i r hir ⟨v, t⟩ hp
      obtain ⟨d, hd, hdm⟩ := arrivalRoute_times (hr i r hir)
      have h1 := h (i, d) ((hmA i d).2 ⟨r, hir, hd⟩)
      rw [forM_ok_iff] at h1
      exact guarded_ok.1 (h1 (v, t) ((hdm v t).2 hp))
    · rintro h ⟨i, d⟩ hd
      obtain ⟨r, hir, hrd⟩ := (hmA i d).1 hd
      obtain ⟨d', hd', hdm⟩ := arrivalRoute_times (hr i r hir)
      rw [hd'] at hrd
      cases hrd
      rw [forM_ok_iff]
      rintro ⟨v, t⟩ hq
      exact guarded_ok.2 (h i r hir _ ((hdm v t).1 hq))
  · unfold checkDepartureTime
    rw [forM_ok_iff]
    constructor
    · intro h i r hir
      obtain ⟨d, hd, hdm⟩ := departureRoute_times (hr i r hir)
      have h1 := h (i, d) ((hmD i d).2 ⟨r, hir, hd⟩)
      rw [forM_ok_iff] at h1
      refine ⟨guarded_ok.1 (h1 (.source, H.lower .source) ((hdm _ _).2 (Or.inl ⟨rfl, rfl⟩))), ?_⟩
      rintro ⟨v, t⟩ hp
      exact guarded_ok.1 (h1 (v, t + H.service v) ((hdm _ _).2 (Or.inr ⟨t, hp, rfl⟩)))
    · rintro h ⟨i, d⟩ hd
      obtain ⟨r, hir, hrd⟩ := (hmD i d).1 hd
      obtain ⟨d', hd', hdm⟩ := departureRoute_times (hr i r hir)
      rw [hd'] at hrd
      cases hrd
      rw [forM_ok_iff]
      rintro ⟨v, t⟩ hq
      refine guarded_ok.2 ?_
      rcases (hdm v t).1 hq with ⟨rfl, rfl⟩ | ⟨s, hs, rfl⟩
      · exact (h i r hir).1
      · exact (h i r hir).2 _ hs

/-- **C67**, soundness of `check_arrival_time`: if the windows of the pruned graph lie within those of the reports and the
check passes, every (simple) route is on time. -/
theorem C67_check_sound {H G : Net} {S : Solution} {A : Dict Nat (Dict Node ℚ)} (hup : ∀ v, G.upper v ≤ H.upper v)
    (hr : ∀ i r, (i, r) ∈ S.routes → IsSimpleRoute H r) (hA : arrivalTime H true S = .ok A)
    (h : checkArrivalTime G A = .ok ()) : ∀ i r, (i, r) ∈ S.routes → OnTime H r := by
  obtain ⟨A', _, hA', _, h1, _⟩ := C67_checks_exact (G := G) hr
  rw [hA] at hA'
  cases hA'
  intro i r hir
  have h2 := h1.1 h i r hir
  obtain ⟨⟨mid, rfl, _, _⟩, _⟩ := hr i r hir
  intro p hp
  exact (h2 p (List.mem_cons_of_mem _ hp)).2.2.trans (hup _)

/-! ## Whole runs -/

/-- The times of the problem make sense: no negative service time; driving straight from Source to a customer, or straight home,
is not slower than through another customer; Source does not close before it opens (a closing time that is not given counts as
0); and if Sink has no closing time, it is open when the last vehicle can be back from some node. -/
structure Spec.TimesMakeSense (P : Vrp) : Prop where
  service : ∀ v ∈ P.G.nodes, 0 ≤ userService P.G v
  from_source : ∀ m n, Node.cust n ∈ P.G.succ (.cust m) →
    userTime P.G .source (.cust n) ≤ userTime P.G .source (.cust m) + userService P.G (.cust m) + userTime P.G (.cust m) (.cust n)
  to_sink : ∀ m n, Node.cust n ∈ P.G.succ (.cust m) →
    userTime P.G (.cust m) .sink ≤ userService P.G (.cust m) + userTime P.G (.cust m) (.cust n) + userTime P.G (.cust n) .sink
  start : userLower P.G .source ≤ userUpper P.G .source
  home : userUpper P.G .sink = 0 → ∃ u ∈ P.G.nodes, u ≠ .sink ∧
    userLower P.G .sink ≤ userUpper P.G u + userService P.G u + userTime P.G u .sink

theorem Searched.triangle {P0 P' : Vrp} {K : Nat} {N N3 : Net} (S : Searched P0 P' K N N3) (hT : TimesMakeSense P0) :
    DepotTriangle N := by
  have hcust : ∀ v ∈ N.customers, ∃ n, v = .cust n ∧ Node.cust n ∈ N.nodes := by
    intro v hv
    obtain ⟨h1, h2, h3⟩ := mem_customers.1 hv
    cases v with
    | source => exact absurd rfl h2
    | sink => exact absurd rfl h3
    | cust n => exact ⟨n, rfl, h1⟩
  refine ⟨?_, ?_, ?_⟩
  · intro v hv
    rw [S.service v hv]
    exact hT.service v (by rw [← S.userNodes]; exact hv)
  · intro u v hu hv huv
    obtain ⟨m, rfl, hm⟩ := hcust u hu
    obtain ⟨n, rfl, hn⟩ := hcust v hv
    have harc : Node.cust n ∈ P0.G.succ (.cust m) := by
      rcases S.userArcs _ _ huv with h | ⟨h, _⟩ | ⟨h, _⟩ | ⟨h, _⟩
      · exact h
      · cases h
      · cases h
      · cases h
    rw [S.time _ _ (S.connected n hn).1, S.time _ _ (S.connected m hm).1, S.time _ _ huv, S.service _ hm]
    exact hT.from_source m n harc
  · intro u v hu hv huv
    obtain ⟨m, rfl, hm⟩ := hcust u hu
    obtain ⟨n, rfl, hn⟩ := hcust v hv
    have harc : Node.cust n ∈ P0.G.succ (.cust m) := by
      rcases S.userArcs _ _ huv with h | ⟨h, _⟩ | ⟨h, _⟩ | ⟨h, _⟩
      · exact h
      · cases h
      · cases h
      · cases h
    rw [S.time _ _ (S.connected n hn).2, S.time _ _ (S.connected m hm).2, S.time _ _ huv, S.service _ hm]
    exact hT.to_sink m n harc

/-- A route that is on time for the user is on time in the network of the reports. -/
theorem onTime_searched {P0 P' : Vrp} {K : Nat} {N N3 : Net} (S : Searched P0 P' K N N3) (U : UserData P0 P' N)
    (hT : TimesMakeSense P0) {mid : List Node} (hr : IsRoute N (routeOf mid)) (h : UserOnTime P0.G (routeOf mid)) :
    OnTime N (routeOf mid) := by
  have hhome : userUpper P0.G .sink = 0 → N.lower .sink ≤ N.upper .sink := by
    intro h0
    obtain ⟨u, hu, hne, hle⟩ := hT.home h0
    rw [← S.userNodes] at hu
    have harc : Node.sink ∈ N.succ u := by
      cases u with
      | source => exact S.direct
      | sink => exact absurd rfl hne
      | cust n => exact (S.connected n hu).2
    refine le_trans ?_ (U.upperSinkSet h0 u (N.upper u) harc le_rfl)
    rw [U.lower _ S.wf.sink_mem, U.upper u hu hne, S.service u hu, S.time _ _ harc]
    exact hle
  have key : ∀ (rest : List Node) (u : Node) (t : ℚ), Along (fun u v => v ∈ N.succ u) (u :: rest) → t ≤ N.upper u →
      (∀ p ∈ userArrivals P0.G t u rest, p.2 ≤ userUpper P0.G p.1 ∨ (p.1 = .sink ∧ userUpper P0.G .sink = 0)) →
      ∀ p ∈ rest.zip (arrivalsFrom N t u rest), p.2 ≤ N.upper p.1 := by
    intro rest
    induction rest with
    | nil => intro u t _ _ _ p hp; cases hp
    | cons v rest ih =>
      intro u t hal htu hon p hp
      obtain ⟨hv, hal'⟩ := hal
      obtain ⟨hmu, hmv⟩ := S.wf.edge_mem u v hv
      have ha : max (t + userService P0.G u + userTime P0.G u v) (userLower P0.G v) =
          max (t + N.service u + N.time u v) (N.lower v) := by
        rw [S.service u hmu, S.time u v hv, U.lower v hmv]
        rfl
      rw [userArrivals, ha] at hon
      have hle : max (t + N.service u + N.time u v) (N.lower v) ≤ N.upper v := by
        rcases hon _ (List.mem_cons_self ..) with h1 | ⟨h1, h0⟩
        · by_cases hs : v = .sink
          · subst hs
            by_cases h0 : userUpper P0.G .sink = 0
            · exact max_le (U.upperSinkSet h0 u t hv htu) (hhome h0)
            · rw [U.upperSink h0]
              exact h1
          · rw [U.upper v hmv hs]
            exact h1
        · simp only at h1
          subst h1
          exact max_le (U.upperSinkSet h0 u t hv htu) (hhome h0)
      rw [arrivalsFrom, List.zip_cons_cons, List.mem_cons] at hp
      rcases hp with rfl | hp
      · exact hle
      · exact ih v _ hal' hle (fun q hq => hon q (List.mem_cons_of_mem _ hq)) p hp
  obtain ⟨_, _, _, hal⟩ := hr
  have hlow : userLower P0.G .source = N.lower .source := (U.lower _ S.wf.source_mem).symm
  refine key (mid ++ [Node.sink]) .source (N.lower .source) hal ?_ ?_
  · rw [← hlow, U.upper _ S.wf.source_mem (by simp)]
    exact hT.start
  · rw [← hlow]
    exact h

/-- Along a route that is on time, every node is reached within the strengthened windows. -/
theorem times_strengthened {G : Net} (hG : WellFormed G) (hT : DepotTriangle G) {r : List Node} (hr : IsRoute G r)
    (hon : OnTime G r) (hs : G.lower .source ≤ G.upper .source) :
    ∀ p ∈ timesAlong G r, (strengthened G).lower p.1 ≤ p.2 ∧ p.2 ≤ (strengthened G).upper p.1 := by
  have key : ∀ (rest : List Node) (u : Node) (t : ℚ), Reachable G u t →
      (∃ mid : List Node, rest = mid ++ [.sink] ∧ ∀ v ∈ mid, v ∈ G.customers) →
      Along (fun u v => v ∈ G.succ u) (u :: rest) →
      (∀ p ∈ rest.zip (arrivalsFrom G t u rest), p.2 ≤ G.upper p.1) →
      ∀ p ∈ rest.zip (arrivalsFrom G t u rest), (strengthened G).lower p.1 ≤ p.2 ∧ p.2 ≤ (strengthened G).upper p.1 := by
    intro rest
    induction rest with
    | nil => intro u t _ _ _ _ p hp; cases hp
    | cons x rest ih =>
      intro u t hreach hr ha hon p hp
      rcases route_cases hr ha with ⟨h, _⟩ | ⟨v, rest', h, hv, huv, ha', hr'⟩
      · cases h
        have := hon p hp
        have hp' : p = (.sink, max (t + G.service u + G.time u .sink) (G.lower .sink)) := by
          simpa [arrivalsFrom] using hp
        subst hp'
        simp only [strengthened, sink_not_customer, if_false]
        exact ⟨le_max_right _ _, this⟩
      · cases h
        have hge : G.lower .source + G.time .source x ≤ t + G.service u + G.time u x := by
          rcases hreach with ⟨rfl, rfl⟩ | ⟨hu, hle⟩
          · have := hT.service_nonneg .source hG.source_mem
            linarith
          · have := hT.from_source u x hu hv huv
            linarith
        have htail : ∀ p ∈ rest.zip (arrivalsFrom G (max (t + G.service u + G.time u x) (G.lower x)) x rest), p.2 ≤ G.upper p.1 := by
          intro p hp
          exact hon p (by simp only [arrivalsFrom, List.zip_cons_cons, List.mem_cons]; exact Or.inr hp)
        rw [arrivalsFrom, List.zip_cons_cons, List.mem_cons] at hp
        rcases hp with rfl | hp
        · simp only [strengthened, hv, if_true]
          refine ⟨max_le (le_max_right _ _) (hge.trans (le_max_left _ _)), le_min ?_ ?_⟩
          · exact hon (x, _) (by simp [arrivalsFrom])
          · exact straight_home hT rest x _ hv hr' ha' htail
        · exact ih x _ (Or.inr ⟨hv, hge.trans (le_max_left _ _)⟩) hr' ha' htail p hp
  obtain ⟨mid, rfl, hmid, ha⟩ := hr
  intro p hp
  rcases List.mem_cons.1 hp with rfl | hp
  · simp only [strengthened, source_not_customer, if_false]
    exact ⟨le_rfl, hs⟩
  · refine key (mid ++ [Node.sink]) .source (G.lower .source) (Or.inl ⟨rfl, rfl⟩) ⟨mid, rfl, fun v hv => ?_⟩ ha hon p hp
    obtain ⟨⟨n, rfl⟩, h2⟩ := hmid v hv
    exact mem_customers.2 ⟨h2, by simp, by simp⟩

theorem columnFor_route {G : Net} {K : Nat} {F : Nat → List Node → Prop} :
    ColumnFor G K F = ColumnFor G K (fun k r => IsSimpleRoute G r ∧ F k r) := by
  funext c
  refine propext ⟨?_, ?_⟩
  · rintro ⟨h1, h2⟩
    refine ⟨h1, h2.imp_right ?_⟩
    rintro ⟨r, a, b, c⟩
    exact ⟨r, a, b, a, c⟩
  · rintro ⟨h1, h2⟩
    refine ⟨h1, h2.imp_right ?_⟩
    rintro ⟨r, a, b, _, c⟩
    exact ⟨r, a, b, c⟩

theorem columnGeneration_object {w : World} {a : SolveArgs} {fuel : Nat} {P : Vrp} {o o' : Obj}
    (h : Obj.columnGeneration w a fuel P o = .ok (some o')) :
    ∃ P'' cols, P.initialize P.G.toNet w.cw fuel = .ok (some (P'', cols)) ∧ o'.P = P'' := by
  unfold Obj.columnGeneration at h
  split at h
  · cases h
  · cases h
  rename_i P'' cols h1
  refine ⟨P'', cols, h1, ?_⟩
  split at h
  · cases h
  split at h
  · cases h
  · cases h
  split at h
  · cases h
  rename_i o2 hpost
  simp only [Except.ok.injEq, Option.some.injEq] at h
  subst h
  unfold Obj.postProcess at hpost
  simp only [py_bind_ok] at hpost
  obtain ⟨_, _, _, _, _, _, hfin⟩ := hpost
  cases hfin
  rfl

/-- The checks pass if the routes reported are simple and on time for the user. -/
theorem checks_of_routes {P0 P1 : Vrp} {o' : Obj} {K : Nat} {N N3 : Net}
    (S : Searched P0 P1 K N N3) (U : UserData P0 P1 N) (htw : P0.timeWindows = true)
    (hfirst : P0.G.nodes.head? = some .source) (hT : TimesMakeSense P0)
    (hH : o'.P.H = some N) (hG : o'.P.G.toNet = N3) (htimed : o'.timed = true)
    (hsimple : ∀ i r, (i, r) ∈ o'.solution.routes → IsSimpleRoute N r)
    (hon : ∀ i r, (i, r) ∈ o'.solution.routes → ∃ mid, r = routeOf mid ∧ UserOnTime P0.G r) :
    o'.checkArrivalTime = .ok () ∧ o'.checkDepartureTime = .ok () := by
  obtain ⟨w1, w2, _⟩ := S.windows htw hfirst
  have htri := S.triangle hT
  have hwin : ∀ i r, (i, r) ∈ o'.solution.routes → ∀ p ∈ timesAlong N r,
      (strengthened N).lower p.1 ≤ p.2 ∧ p.2 ≤ (strengthened N).upper p.1 := by
    intro i r hir
    obtain ⟨mid, rfl, hon⟩ := hon i r hir
    refine times_strengthened S.wf htri (hsimple i _ hir).1 (onTime_searched S U hT (hsimple i _ hir).1 hon) ?_
    rw [U.lower _ S.wf.source_mem, U.upper _ S.wf.source_mem (by simp)]
    exact hT.start
  have hnodes : ∀ i r, (i, r) ∈ o'.solution.routes → ∀ p ∈ timesAlong N r, p.1 ∈ N3.nodes := by
    intro i r hir p hp
    rw [S.nodes]
    obtain ⟨⟨mid, rfl, hm, _⟩, _⟩ := hsimple i r hir
    rcases List.mem_cons.1 hp with rfl | hp
    · exact S.wf.source_mem
    · have : p.1 ∈ mid ++ [Node.sink] := (List.of_mem_zip hp).1
      rcases List.mem_append.1 this with h | h
      · exact (hm _ h).2
      · rw [List.mem_singleton] at h
        rw [h]
        exact S.wf.sink_mem
  obtain ⟨A, D, hA, hD, h3, h4⟩ := C67_checks_exact (G := N3) hsimple
  refine ⟨?_, ?_⟩
  · unfold Obj.checkArrivalTime
    rw [hH, htimed]
    simp only [Option.getD_some, hA]
    rw [hG, h3, w1, w2]
    exact fun i r hir p hp => ⟨hnodes i r hir p hp, hwin i r hir p hp⟩
  · unfold Obj.checkDepartureTime
    rw [hH, htimed]
    simp only [Option.getD_some, hD]
    rw [hG, h4, w1]
    intro i r hir
    refine ⟨⟨by rw [S.nodes]; exact S.wf.source_mem, by simp [strengthened, source_not_customer]⟩, ?_⟩
    intro p hp
    have hw' := (hwin i r hir p (List.mem_cons_of_mem _ hp)).1
    have hmem := hnodes i r hir p (List.mem_cons_of_mem _ hp)
    have := htri.service_nonneg _ (by rw [← S.nodes]; exact hmem)
    exact ⟨hmem, by linarith⟩

/-- The checks pass if the routes reported are on time for the user. -/
theorem checks_pass {w : World} {a : SolveArgs} {fuel : Nat} {P0 P' : Vrp} {o o' : Obj} {K : Nat} {N N3 : Net}
    (S : Searched P0 P' K N N3) (U : UserData P0 P' N) (htw : P0.timeWindows = true)
    (hfirst : P0.G.nodes.head? = some .source) (hT : TimesMakeSense P0)
    (hin : ∀ P'' cols, P'.initialize P'.G.toNet w.cw fuel = .ok (some (P'', cols)) → ∃ rs, P'' = { P' with initialRoutes := rs })
    (h : Obj.columnGeneration w a fuel P' o = .ok (some o'))
    (hroutes : ∀ i r, (i, r) ∈ o'.solution.routes → IsSimpleRoute N3 r ∧ ∃ mid, r = routeOf mid ∧ UserOnTime P0.G r) :
    o'.checkArrivalTime = .ok () ∧ o'.checkDepartureTime = .ok () := by
  obtain ⟨P'', cols, h1, hobj⟩ := columnGeneration_object h
  obtain ⟨rs, hP''⟩ := hin _ _ h1
  rw [hP''] at hobj
  refine checks_of_routes S U htw hfirst hT (by rw [hobj]; exact S.reports) ?_ ?_ ?_ (fun i r hir => (hroutes i r hir).2)
  · rw [hobj]
    show P'.G.toNet = N3
    rw [S.graph]
    rfl
  · unfold Obj.timed
    have : o'.P.timeWindows = true := by
      rw [hobj]
      show P'.timeWindows = true
      rw [S.fields.2.1, htw]
    rw [this, Bool.or_true]
  · intro i r hir
    obtain ⟨⟨⟨mid, h1, h2, h3⟩, h4⟩, _⟩ := hroutes i r hir
    refine ⟨⟨mid, h1, ?_, ?_⟩, h4⟩
    · rw [← S.nodes]
      exact h2
    · rw [along_iff] at h3 ⊢
      exact fun x y hxy => S.same.succ _ _ (h3 x y hxy)

/-- **C67 (partial).** Full claim: after `solve()` on a problem with time windows, `check_arrival_time()` and
`check_departure_time()` pass.  Proved for runs as in C60, with pricing by cspy or by LP, with or without diving, if the times
make sense.  Without that it is false: `C67_no_triangle_counterexample`, `C67_source_counterexample`; and for problems with a
duration but without time windows `check_arrival_time` fails (`C67_duration_counterexample`). -/
theorem C67_checks_pass_partial {w : World} {a : SolveArgs} {fuel : Nat} {P0 : Vrp} {o o' : Obj}
    (hw : (WorldOk w ∧ a.cspy = true) ∨ (LpSound w ∧ a.cspy = false ∧ TravelTakesTime P0))
    (hd : a.dive = true → DiveOk w.toEnv)
    (hP : WindowedOrCollecting P0) (htw : P0.timeWindows = true) (hT : TimesMakeSense P0) (hpre : a.preassignments = [])
    (hheur : a.heuristicOnly = false)
    (hinit : ∀ r ∈ a.initialRoutes, r.Nodup ∧ ∀ mid k, r = routeOf mid →
      WithinCapacity (userCapacities P0.loadCapacity) k (mid.map (userDemand P0.G)).sum → RouteLimits P0 k mid)
    (hc : Obj.create P0 = .ok o) (h : o.solve w a fuel = .ok (some o')) :
    o'.checkArrivalTime = .ok () ∧ o'.checkDepartureTime = .ok () := by
  unfold Obj.solve at h
  split at h
  · cases h
  rename_i P' hstart
  rw [hheur] at h
  simp only [Bool.false_eq_true, if_false] at h
  obtain ⟨K, N, N3, S⟩ := searched (w := w) hP.wf hP.customer hP.costs hP.demand hpre hc hstart
  have U := userData (w := w) hP.wf hP.demand hpre hc hstart S.reports
  have hold : o.solution.dropped = [] := by
    obtain ⟨G, _, rfl⟩ := create_ok hc
    rfl
  have hi := startSolve_initial hc hstart
  have hin : ∀ P'' cols, P'.initialize P'.G.toNet w.cw fuel = .ok (some (P'', cols)) → Solve.Numbered cols ∧
      (∀ c ∈ cols, ColumnFor N3 K (fun k r => ∃ mid, r = routeOf mid ∧ RouteLimits P0 k mid) c) ∧
      ∃ rs, P'' = { P' with initialRoutes := rs } :=
    fun P'' cols h1 => initial_limits hP.toVariantData S U (by rw [hi]; exact hinit) h1
  have hpr : ∀ rs d, Solve.PriceOk (({ P' with initialRoutes := rs } : Vrp).solveCfg a w.falsy) w.toEnv d
      (ColumnFor N3 K (fun k r => ∃ mid, r = routeOf mid ∧ RouteLimits P0 k mid)) := by
    intro rs d
    rcases hw with ⟨hw, hcspy⟩ | ⟨hw, hcspy, htime⟩
    · exact price_variant hw hP.toVariantData S U hcspy rs d
    · exact price_windows_lp hw hP.toVariantData htw htime S U hcspy rs d
  have hmaster : ∀ t, MasterSolverSound (w.master t) := by
    rcases hw with ⟨hw, _⟩ | ⟨hw, _, _⟩
    · exact hw.master
    · exact hw.master
  have hpath : ∀ (c : Column) (p : List Node), IsShortestPath c.edges p → IsShortestPath c.edges (w.path c) := by
    rcases hw with ⟨hw, _⟩ | ⟨hw, _, _⟩
    · exact hw.path
    · exact hw.path
  have hsp : a.cspy = true → ∀ t q, CspySound q (w.cspy t q) := by
    intro hcs
    rcases hw with ⟨hw, _⟩ | ⟨_, hcspy, _⟩
    · exact hw.cspy
    · rw [hcs] at hcspy
      cases hcspy
  have hroutes : ∀ i r, (i, r) ∈ o'.solution.routes → IsSimpleRoute N3 r ∧ ∃ mid, r = routeOf mid ∧ UserOnTime P0.G r := by
    rw [columnFor_route] at hin hpr
    intro i r hir
    cases hdv : a.dive with
    | false =>
      have hplan := (plan_of_columns hP.customer hP.periodic S hmaster hpath hin hdv (fun _ => hold)
        (fun rs _ d _ _ _ _ _ => hpr rs d) h).2.1
      obtain ⟨_, _, _, _, _, k, _, _, hs, mid, rfl, hl⟩ := hplan.routes i r hir
      exact ⟨hs, mid, rfl, hl.windows htw⟩
    | true =>
      have hcov := (cover_of_columns hP.periodic S (hd hdv) hmaster hsp hpath hin hdv (fun _ => hold)
        (fun rs _ _ d _ _ _ _ => hpr rs d) h).2.1
      obtain ⟨_, _, _, _, _, k, _, _, hs, mid, rfl, hl⟩ := hcov.routes i r hir
      exact ⟨hs, mid, rfl, hl.windows htw⟩
  exact checks_pass S U htw (hP.source htw).1 hT (fun P'' cols h1 => (hin P'' cols h1).2.2) h hroutes

/-! ## An example -/

/-- What `solve()` and then the two checks do: the exceptions of the checks. -/
noncomputable def checksOf (w : World) (a : SolveArgs) (fuel : Nat) (P : Vrp) : Option (Option PyErr × Option PyErr) :=
  match Obj.create P with
  | .error _ => none
  | .ok o =>
    match o.solve w a fuel with
    | .ok (some o') => some (raised o'.checkArrivalTime, raised o'.checkDepartureTime)
    | _ => none

theorem exBoth_arc {m n : Nat} (h : Node.cust n ∈ exBoth.G.succ (.cust m)) : m = 1 ∧ n = 2 := by
  match m with
  | 1 => simpa [exBoth] using h
  | 0 => simp [exBoth] at h
  | 2 => simp [exBoth] at h
  | m + 3 => simp [exBoth] at h

theorem exBoth_times : TimesMakeSense exBoth where
  service := by decide +kernel
  from_source := by
    intro m n h
    obtain ⟨rfl, rfl⟩ := exBoth_arc h
    decide +kernel
  to_sink := by
    intro m n h
    obtain ⟨rfl, rfl⟩ := exBoth_arc h
    decide +kernel
  start := by decide +kernel
  home := fun h => absurd h (by decide +kernel)

/-- The hypotheses of C67 (partial) are met by the example of C60; the route over both customers passes the checks. -/
example : WorldOk exWorld2 ∧ WindowedOrCollecting exBoth ∧ TimesMakeSense exBoth ∧
    planOf exWorld2 {} 5 exBoth = .ok (some ⟨[(1, routeOf [.cust 1, .cust 2])], [(1, 0)], []⟩) ∧
    checksOf exWorld2 {} 5 exBoth = some (none, none) := by
  refine ⟨exWorld2_ok, exBoth_ok, exBoth_times, Solve.eq_ok_of_toOption (by decide +kernel), by decide +kernel⟩

/-! ## Counterexamples -/

/-- Two customers; Source is open from `opens`, to `closes` if given; the direct way to 2 takes `direct`, all other ways take 1. -/
def shortCut (opens direct : ℚ) (closes : Option ℚ) : Vrp where
  G := {
    nodes := [.source, .cust 1, .cust 2, .sink]
    nd := fun v => match v with
      | .source => { lower := some opens, upper := closes }
      | .sink => { upper := some 100 }
      | _ => { demand := some 2, upper := some 100 }
    succ := fun u => match u with
      | .source => [.cust 1, .cust 2]
      | .cust 1 => [.cust 2, .sink]
      | .cust 2 => [.sink]
      | _ => []
    ed := fun u v => {
      cost := some (.scalar (if u = .source ∨ v = .sink then 10 else 1))
      time := some (if u = .source ∧ v = .cust 2 then direct else 1) } }
  loadCapacity := .one (.int 5)
  timeWindows := true

/-- **C67**, counterexample: the direct way to customer 2 takes 30, the way over customer 1 takes 2.  The preprocessing concludes
that 2 "cannot be reached before 30" and moves its opening time; the reported route, which is on time for the user, reaches 2 at
time 2, and both checks fail. -/
theorem C67_no_triangle_counterexample :
    WorldOk exWorld2 ∧
    planOf exWorld2 {} 5 (shortCut 0 30 none) = .ok (some ⟨[(1, routeOf [.cust 1, .cust 2])], [(1, 0)], []⟩) ∧
    UserOnTime (shortCut 0 30 none).G (routeOf [.cust 1, .cust 2]) ∧
    checksOf exWorld2 {} 5 (shortCut 0 30 none) = some (some .assertionError, some .assertionError) := by
  refine ⟨exWorld2_ok, Solve.eq_ok_of_toOption (by decide +kernel), ?_, by decide +kernel⟩
  show ∀ p ∈ _, _
  decide +kernel

/-- **C67**, counterexample: Source opens at 5 and has no closing time; it counts as 0, and `check_arrival_time` fails for every
route.  With a closing time the same run passes. -/
theorem C67_source_counterexample :
    WorldOk exWorld2 ∧
    planOf exWorld2 {} 5 (shortCut 5 1 none) = .ok (some ⟨[(1, routeOf [.cust 1, .cust 2])], [(1, 0)], []⟩) ∧
    UserOnTime (shortCut 5 1 none).G (routeOf [.cust 1, .cust 2]) ∧
    checksOf exWorld2 {} 5 (shortCut 5 1 none) = some (some .assertionError, none) ∧
    checksOf exWorld2 {} 5 (shortCut 5 1 (some 5)) = some (none, none) := by
  refine ⟨exWorld2_ok, Solve.eq_ok_of_toOption (by decide +kernel), ?_, by decide +kernel, by decide +kernel⟩
  show ∀ p ∈ _, _
  decide +kernel

/-- One customer, with a duration and without time windows. -/
def timedTrip : Vrp where
  G := {
    nodes := [.source, .cust 1, .sink]
    nd := fun _ => {}
    succ := fun u => match u with
      | .source => [.cust 1]
      | .cust 1 => [.sink]
      | _ => []
    ed := fun _ _ => {
      cost := some (.scalar 1)
      time := some 10 } }
  duration := .int 20

/-- **C67**, counterexample: a problem with a duration and without time windows.  Arrival times are reported, but closing times
that nobody gave count as 0, and `check_arrival_time` fails. -/
theorem C67_duration_counterexample :
    WorldOk exWorld3 ∧
    planOf exWorld3 { initialRoutes := [routeOf [.cust 1]] } 5 timedTrip = .ok (some ⟨[(1, routeOf [.cust 1])], [(1, 0)], []⟩) ∧
    checksOf exWorld3 { initialRoutes := [routeOf [.cust 1]] } 5 timedTrip = some (some .assertionError, none) := by
  refine ⟨exWorld3_ok, Solve.eq_ok_of_toOption (by decide +kernel), by decide +kernel⟩

end Vrpy
