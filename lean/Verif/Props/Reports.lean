import Verif.Proofs.Reports

/-!
# C39, C40, C41: the time, load and duration reports
-/

namespace Vrpy

open Spec

/-- `b` is a possible timetable of route `r`: it starts at Source not before its opening, and reaches every further node
no earlier than travel allows and not before it opens. -/
def Spec.Timetable (H : Net) (r : List Node) (b : Node → ℚ) : Prop :=
  H.lower .source ≤ b .source ∧
  ∀ u v, (u, v) ∈ consecutive r → b u + H.service u + H.time u v ≤ b v ∧ H.lower v ≤ b v

theorem mapM_entries {α β : Type} {f : Nat × α → Py (Nat × β)} {g : α → Py β} {l : Dict Nat α}
    (hf : ∀ p, f p = match g p.2 with | .error e => .error e | .ok y => .ok (p.1, y)) {D : Dict Nat β}
    (h : l.mapM f = .ok D) :
    D.map Prod.fst = l.map Prod.fst ∧ ∀ p ∈ l, ∃ y, g p.2 = .ok y ∧ (p.1, y) ∈ D := by
  have hall := py_mapM_ok.1 h
  induction hall with
  | nil => simp
  | @cons x y l D hx hrest ih =>
    rw [hf] at hx
    cases hg : g x.2 with
    | error e => simp [hg] at hx
    | ok z =>
      simp only [hg, Except.ok.injEq] at hx
      subst hx
      obtain ⟨i1, i2⟩ := ih (py_mapM_ok.2 hrest)
      refine ⟨by simp [i1], ?_⟩
      intro p hp
      rcases List.mem_cons.1 hp with rfl | hp
      · exact ⟨z, hg, by simp⟩
      · obtain ⟨y, h1, h2⟩ := i2 p hp
        exact ⟨y, h1, List.mem_cons_of_mem _ h2⟩

/-- Facts about the arrival times of one route. -/
theorem arrival_facts {H : Net} {r : List Node} (hr : IsSimpleRoute H r) :
    ∃ d, arrivalRoute H r = .ok d ∧ (∀ v, (dget d v).isSome ↔ v ∈ r) ∧ dget d .source = some (H.lower .source) ∧
      (∀ u v, (u, v) ∈ consecutive r →
        (dget d v).getD 0 = max ((dget d u).getD 0 + H.service u + H.time u v) (H.lower v)) ∧
      r.tail.map (dget d) = (arrivalsFrom H (H.lower .source) .source r.tail).map some := by
  obtain ⟨⟨mid, rfl, _, hal⟩, hnd⟩ := hr
  obtain ⟨d, h1, h2, h3, h4⟩ := arrival_fold (H := H) (mid ++ [Node.sink]) .source [(.source, H.lower .source)]
    (H.lower .source) hnd hal (by simp [dget])
  have hsrc : dget d .source = some (H.lower .source) := by
    rw [h2 _ (List.nodup_cons.1 hnd).1]; simp [dget]
  refine ⟨d, h1, ?_, hsrc, ?_, h3⟩
  · intro v
    constructor
    · intro hv
      by_contra hnot
      simp only [routeOf, List.mem_cons, not_or] at hnot
      rw [h2 v hnot.2] at hv
      simp [dget, hnot.1] at hv
    · intro hv
      revert v
      refine leg_induction (P := fun v => (dget d v).isSome = true) (by rw [hsrc]; rfl) ?_
      intro x y hxy _
      obtain ⟨a, b, _, hb, _⟩ := h4 x y hxy
      rw [hb]; rfl
  · intro u v huv
    obtain ⟨a, b, ha, hb, hab⟩ := h4 u v huv
    rw [ha, hb]
    exact hab

/-- **C39**, arrival times.  For every returned (simple) route, `arrival_time` lists exactly its nodes; Source has its
opening time and every next node `max(previous arrival + service + travel, lower window)`; this is the earliest of all
possible timetables. -/
theorem C39_arrival_times {H : Net} {S : Solution} {D : Dict Nat (Dict Node ℚ)} (h : arrivalTime H true S = .ok D) :
    D.map Prod.fst = S.routes.map Prod.fst ∧
    ∀ i r, (i, r) ∈ S.routes → IsSimpleRoute H r → ∃ d, (i, d) ∈ D ∧ (∀ v, (dget d v).isSome ↔ v ∈ r) ∧
      ∀ a : Node → ℚ, (a = fun v => (dget d v).getD 0) →
        a .source = H.lower .source ∧
        (∀ u v, (u, v) ∈ consecutive r → a v = max (a u + H.service u + H.time u v) (H.lower v)) ∧
        Timetable H r a ∧ ∀ b, Timetable H r b → ∀ v ∈ r, a v ≤ b v := by
  obtain ⟨h1, h2⟩ := mapM_entries (f := arrivalEntry H) (g := arrivalRoute H)
    (fun p => by unfold arrivalEntry; cases arrivalRoute H p.2 <;> rfl) h
  refine ⟨h1, ?_⟩
  intro i r hir hr
  obtain ⟨d, hd, hmem⟩ := h2 _ hir
  obtain ⟨d', hd', hk, hs, hleg, _⟩ := arrival_facts hr
  rw [show arrivalRoute H (i, r).2 = arrivalRoute H r from rfl, hd'] at hd
  cases hd
  refine ⟨d, hmem, hk, ?_⟩
  rintro a rfl
  have hsrc : (dget d .source).getD 0 = H.lower .source := by rw [hs]; rfl
  refine ⟨hsrc, hleg, ⟨hsrc.ge, ?_⟩, ?_⟩
  · intro u v huv
    simp only [hleg u v huv]
    exact ⟨le_max_left _ _, le_max_right _ _⟩
  · rintro b ⟨hb0, hb⟩
    obtain ⟨⟨mid, rfl, _, _⟩, _⟩ := hr
    refine leg_induction (P := fun v => (dget d v).getD 0 ≤ b v) (hsrc.le.trans hb0) ?_
    intro x y hxy hx
    obtain ⟨hb1, hb2⟩ := hb x y hxy
    show (dget d y).getD 0 ≤ b y
    rw [hleg x y hxy]
    exact max_le (by linarith) hb2

/-- **C39**, monotonicity: with non-negative travel and service times arrival times never decrease along the route, and
at every node they are not before its lower window. -/
theorem C39_arrival_monotone {H : Net} {S : Solution} {D : Dict Nat (Dict Node ℚ)} (h : arrivalTime H true S = .ok D)
    (ht : ∀ u v, 0 ≤ H.time u v) (hs : ∀ v, 0 ≤ H.service v) {i : Nat} {r : List Node} (hir : (i, r) ∈ S.routes)
    (hr : IsSimpleRoute H r) :
    ∃ d, (i, d) ∈ D ∧ (∀ u v, (u, v) ∈ consecutive r → (dget d u).getD 0 ≤ (dget d v).getD 0) ∧
      ∀ v ∈ r, H.lower v ≤ (dget d v).getD 0 := by
  obtain ⟨d, hd, _, hfacts⟩ := (C39_arrival_times h).2 i r hir hr
  obtain ⟨h0, hleg, htab, _⟩ := hfacts _ rfl
  refine ⟨d, hd, ?_, ?_⟩
  · intro u v huv
    have := (htab.2 u v huv).1
    have a := ht u v
    have b := hs u
    linarith
  · obtain ⟨⟨mid, rfl, _, _⟩, _⟩ := hr
    exact leg_induction (P := fun v => H.lower v ≤ (dget d v).getD 0) h0.ge (fun x y hxy _ => (htab.2 x y hxy).2)

/-- **C39**, departure times: arrival plus service at every node after Source; at Source the opening time, which is
arrival plus service if Source has no service time. -/
theorem C39_departure_times {H : Net} {S : Solution} {A D : Dict Nat (Dict Node ℚ)} (hA : arrivalTime H true S = .ok A)
    (h : departureTime H true S = .ok D) :
    D.map Prod.fst = S.routes.map Prod.fst ∧
    ∀ i r, (i, r) ∈ S.routes → IsSimpleRoute H r → ∃ a d, (i, a) ∈ A ∧ (i, d) ∈ D ∧
      (dget d .source).getD 0 = H.lower .source ∧
      (∀ v ∈ r, v ≠ .source → (dget d v).getD 0 = (dget a v).getD 0 + H.service v) ∧
      (H.service .source = 0 → ∀ v ∈ r, (dget d v).getD 0 = (dget a v).getD 0 + H.service v) := by
  obtain ⟨h1, h2⟩ := mapM_entries (f := departureEntry H) (g := departureRoute H)
    (fun p => by unfold departureEntry; cases departureRoute H p.2 <;> rfl) h
  obtain ⟨_, h3⟩ := mapM_entries (f := arrivalEntry H) (g := arrivalRoute H)
    (fun p => by unfold arrivalEntry; cases arrivalRoute H p.2 <;> rfl) hA
  refine ⟨h1, ?_⟩
  intro i r hir hr
  obtain ⟨d, hd, hmem⟩ := h2 _ hir
  obtain ⟨a, ha, hamem⟩ := h3 _ hir
  obtain ⟨a', ha', hk, hs, _, _⟩ := arrival_facts hr
  simp only at ha hd
  rw [ha'] at ha
  cases ha
  unfold departureRoute at hd
  rw [ha'] at hd
  simp only at hd
  obtain ⟨⟨mid, rfl, _, _⟩, hnd⟩ := hr
  obtain ⟨d', e1, e2, e3⟩ := departure_fold (H := H) a (mid ++ [Node.sink]) .source [(.source, H.lower .source)]
    (fun x hx => (hk x).2 (by rw [routeOf]; exact List.mem_cons_of_mem _ hx)) hnd
  rw [show consecutive (routeOf mid) = consecutive (.source :: (mid ++ [.sink])) from rfl, e1] at hd
  cases hd
  have hsrc : dget d .source = some (H.lower .source) := by
    rw [e2 _ (List.nodup_cons.1 hnd).1]; simp [dget]
  have hne : ∀ v ∈ routeOf mid, v ≠ .source → (dget d v).getD 0 = (dget a v).getD 0 + H.service v := by
    intro v hv hv0
    have : v ∈ mid ++ [Node.sink] := by
      rw [routeOf] at hv
      exact (List.mem_cons.1 hv).resolve_left hv0
    obtain ⟨x, hx1, hx2⟩ := e3 v this
    rw [hx1, hx2]
    rfl
  refine ⟨a, d, hamem, hmem, by rw [hsrc]; rfl, hne, ?_⟩
  intro h0 v hv
  by_cases hv0 : v = .source
  · subst hv0
    rw [hsrc, hs, h0]
    simp
  · exact hne v hv hv0

/-- **C41.** `best_routes_duration` is travel plus service time of every route. -/
theorem C41_duration {H : Net} {S : Solution} {D : Dict Nat ℚ} (h : bestRoutesDuration H true S = .ok D) :
    D.map Prod.fst = S.routes.map Prod.fst ∧ ∀ i r, (i, r) ∈ S.routes → (i, duration H r) ∈ D := by
  obtain ⟨h1, h2⟩ := mapM_entries (f := durationEntry H)
    (g := fun r => match sumEdgeTimes H (consecutive r) with
      | .error e => .error e
      | .ok t => .ok (t + (r.map H.service).sum))
    (fun p => by
      unfold durationEntry
      cases sumEdgeTimes H (consecutive p.2) <;> rfl) h
  refine ⟨h1, ?_⟩
  intro i r hir
  obtain ⟨y, hy, hmem⟩ := h2 _ hir
  simp only at hy hmem
  cases hs : sumEdgeTimes H (consecutive r) with
  | error e => simp [hs] at hy
  | ok t =>
    simp only [hs, Except.ok.injEq] at hy
    obtain ⟨_, ht⟩ := sumEdgeTimes_ok.1 hs
    have : y = duration H r := by
      rw [← hy, ht, duration, travel, legSum_eq]
    rw [← this]
    exact hmem

private theorem clock_bound {H : Net} {a : Node → ℚ} (rest : List Node) (u z : Node)
    (hleg : ∀ x y, (x, y) ∈ consecutive (u :: rest) → a x + H.service x + H.time x y ≤ a y)
    (hz : (u :: rest).getLast? = some z) :
    travel H (u :: rest) + ((u :: rest).map H.service).sum - H.service z ≤ a z - a u := by
  induction rest generalizing u with
  | nil =>
    simp at hz
    subst hz
    simp [travel, legSum]
  | cons w rest ih =>
    have h1 := hleg u w (by simp)
    have h2 := ih w (fun x y hxy => hleg x y (by rw [consecutive_cons_cons]; exact List.mem_cons_of_mem _ hxy))
      (by simpa using hz)
    simp only [travel, legSum_cons_cons, List.map_cons, List.sum_cons] at h2 ⊢
    linarith

private theorem clock_exact {H : Net} {a : Node → ℚ} (rest : List Node) (u z : Node)
    (hleg : ∀ x y, (x, y) ∈ consecutive (u :: rest) → a y = a x + H.service x + H.time x y)
    (hz : (u :: rest).getLast? = some z) :
    travel H (u :: rest) + ((u :: rest).map H.service).sum - H.service z = a z - a u := by
  induction rest generalizing u with
  | nil =>
    simp at hz
    subst hz
    simp [travel, legSum]
  | cons w rest ih =>
    have h1 := hleg u w (by simp)
    have h2 := ih w (fun x y hxy => hleg x y (by rw [consecutive_cons_cons]; exact List.mem_cons_of_mem _ hxy))
      (by simpa using hz)
    simp only [travel, legSum_cons_cons, List.map_cons, List.sum_cons] at h2 ⊢
    linarith

/-- **C41**, comparison with the clock.  If Sink has no service time, the duration is never more than the arrival at
Sink minus the start at Source, and equal to it when the vehicle never waits. -/
theorem C41_duration_vs_clock {H : Net} {S : Solution} {A : Dict Nat (Dict Node ℚ)} (hA : arrivalTime H true S = .ok A)
    (hsink : H.service .sink = 0) {i : Nat} {r : List Node} (hir : (i, r) ∈ S.routes) (hr : IsSimpleRoute H r) :
    ∃ d, (i, d) ∈ A ∧ ∀ a : Node → ℚ, (a = fun v => (dget d v).getD 0) →
      duration H r ≤ a .sink - a .source ∧
      ((∀ u v, (u, v) ∈ consecutive r → H.lower v ≤ a u + H.service u + H.time u v) →
        duration H r = a .sink - a .source) := by
  obtain ⟨d, hd, _, hfacts⟩ := (C39_arrival_times hA).2 i r hir hr
  refine ⟨d, hd, ?_⟩
  rintro a rfl
  obtain ⟨h0, hleg, htab, _⟩ := hfacts _ rfl
  obtain ⟨⟨mid, rfl, _, _⟩, _⟩ := hr
  have hlast : (Node.source :: (mid ++ [.sink])).getLast? = some .sink := by simp [List.getLast?_cons]
  constructor
  · have := clock_bound (H := H) (a := fun v => (dget d v).getD 0) (mid ++ [Node.sink]) .source .sink
      (fun x y hxy => (htab.2 x y hxy).1) hlast
    rw [hsink, sub_zero] at this
    exact this
  · intro hnw
    have := clock_exact (H := H) (a := fun v => (dget d v).getD 0) (mid ++ [Node.sink]) .source .sink
      (fun x y hxy => by rw [hleg x y hxy]; exact max_eq_left (hnw x y hxy)) hlast
    rw [hsink, sub_zero] at this
    exact this

/-- **C40**, route loads: `best_routes_load` is the sum of the demands on the route; without capacities, with collection and
with pickup and delivery nothing is reported. -/
theorem C40_route_load (H : Net) (caps : List ℚ) (S : Solution) :
    (caps ≠ [] → bestRoutesLoad H caps false false S = S.routes.map (fun p => (p.1, load H p.2))) ∧
    ∀ dc pd, (caps = [] ∨ dc = true ∨ pd = true) → bestRoutesLoad H caps dc pd S = [] := by
  refine ⟨fun hc => by simp [bestRoutesLoad, hc, load], ?_⟩
  rintro dc pd (h | h | h) <;> simp [bestRoutesLoad, h]

/-- **C40**, node loads without collection: at each node of the route `node_load` is the sum of the demands up to and
including it, so at Sink it is the load of the route. -/
theorem C40_node_load {H : Net} {caps : List ℚ} {pickDel : Bool} {S : Solution} {D : Dict Nat (Dict Node ℚ)}
    (hc : caps ≠ [] ∨ pickDel = true) (h : nodeLoad H caps false pickDel S = .ok D) :
    D.map Prod.fst = S.routes.map Prod.fst ∧
    ∀ i r, (i, r) ∈ S.routes → r.Nodup → ∃ d, (i, d) ∈ D ∧
      (∀ pre v post, r = pre ++ v :: post → dget d v = some (((pre ++ [v]).map H.demand).sum)) ∧
      (r.getLast? = some .sink → dget d .sink = some (load H r)) := by
  unfold nodeLoad at h
  rw [if_neg (by rintro ⟨a, b, _⟩; rcases hc with hc | hc; exacts [hc a, by rw [hc] at b; cases b])] at h
  obtain ⟨h1, h2⟩ := mapM_entries (f := nodeLoadEntry H caps false S.types)
    (g := fun r => .ok (r.foldl (nodeLoadStep H false) (0, [])).2) (fun p => rfl) h
  refine ⟨h1, ?_⟩
  intro i r hir hnd
  obtain ⟨y, hy, hmem⟩ := h2 _ hir
  simp only [Except.ok.injEq] at hy
  have key : ∀ pre v post, r = pre ++ v :: post → dget y v = some (((pre ++ [v]).map H.demand).sum) := by
    intro pre v post heq
    rw [← hy, (nodeLoad_fold H false r 0 [] hnd).2 pre v post heq]
    simp
  refine ⟨y, hmem, key, ?_⟩
  intro hl
  obtain ⟨pre, rfl⟩ := List.getLast?_eq_some_iff.1 hl
  exact key pre .sink [] rfl

/-- The load on board when leaving `v` (after the nodes `pre`) on a route of simultaneous distribution and collection:
the vehicle leaves Source with exactly the goods to deliver, unloads demands and loads collections. -/
def Spec.onBoard (H : Net) (r pre : List Node) (v : Node) : ℚ :=
  load H r - ((pre ++ [v]).map H.demand).sum + ((pre ++ [v]).map H.collect).sum

/-- **C40**, node loads with distribution and collection (partial: the code starts from a full vehicle).  `node_load` is
the load on leaving the node of a vehicle that left Source full, that is, the true load plus the unused capacity; it is
the true load if the vehicle is used to capacity. -/
theorem C40_node_load_collection_partial {H : Net} {caps : List ℚ} {pickDel : Bool} {S : Solution}
    {D : Dict Nat (Dict Node ℚ)} (h : nodeLoad H caps true pickDel S = .ok D) :
    D.map Prod.fst = S.routes.map Prod.fst ∧
    ∀ i r, (i, r) ∈ S.routes → r.Nodup → ∃ d k q, (i, d) ∈ D ∧ dget S.types i = some k ∧ caps[k]? = some q ∧
      ∀ pre v post, r = pre ++ v :: post → dget d v = some (onBoard H r pre v + (q - load H r)) := by
  unfold nodeLoad at h
  rw [if_neg (by simp)] at h
  have hall := py_mapM_ok.1 h
  have gen : ∀ (l : Dict Nat (List Node)) (D : Dict Nat (Dict Node ℚ)),
      List.Forall₂ (fun x y => nodeLoadEntry H caps true S.types x = .ok y) l D →
      D.map Prod.fst = l.map Prod.fst ∧ ∀ i r, (i, r) ∈ l → r.Nodup → ∃ d k q, (i, d) ∈ D ∧ dget S.types i = some k ∧
        caps[k]? = some q ∧ ∀ pre v post, r = pre ++ v :: post → dget d v = some (onBoard H r pre v + (q - load H r)) := by
    intro l D hl
    induction hl with
    | nil => simp
    | @cons x y l D hx _ ih =>
      unfold nodeLoadEntry nodeLoadStart at hx
      cases hk : dget S.types x.1 with
      | none => simp [hk] at hx
      | some k =>
        by_cases hcaps : caps = []
        · simp [hk, hcaps] at hx
        · cases hq : caps[k]? with
          | none => simp [hk, hcaps, hq] at hx
          | some q =>
            simp only [hk, hcaps, hq, if_true, if_false, Except.ok.injEq] at hx
            subst hx
            refine ⟨by simp [ih.1], ?_⟩
            intro i r hir hnd
            rcases List.mem_cons.1 hir with heq | hir
            · subst heq
              refine ⟨_, k, q, List.mem_cons_self, hk, hq, ?_⟩
              intro pre v post heq
              rw [(nodeLoad_fold H true r q [] hnd).2 pre v post heq]
              have hsum : ∀ l : List Node, (l.map (fun x => H.collect x - H.demand x)).sum =
                  (l.map H.collect).sum - (l.map H.demand).sum := by
                intro l
                induction l with
                | nil => simp
                | cons a l ih => simp only [List.map_cons, List.sum_cons, ih]; ring
              simp only [if_true, hsum, onBoard]
              congr 1
              ring
            · obtain ⟨d, k', q', a, b⟩ := ih.2 i r hir hnd
              exact ⟨d, k', q', List.mem_cons_of_mem _ a, b⟩
  exact gen _ _ hall

/-- One customer with 1 to deliver and 3 to collect. -/
private def exC40 : Net where
  nodes := [.source, .cust 1, .sink]
  succ := fun u => match u with | .source => [.cust 1] | .cust 1 => [.sink] | _ => []
  demand := fun v => match v with | .cust 1 => 1 | _ => 0
  collect := fun v => match v with | .cust 1 => 3 | _ => 0

/-- `node_load` can exceed the capacity on a feasible route: with capacity 5 the true load never exceeds 3, but
`node_load` reports 7. -/
theorem C40_collection_counterexample :
    ∃ (H : Net) (S : Solution) (q : ℚ) (r : List Node) (D : Dict Nat (Dict Node ℚ)) (d : Dict Node ℚ),
      S.routes = [(1, r)] ∧ IsSimpleRoute H r ∧ nodeLoad H [q] true false S = .ok D ∧ (1, d) ∈ D ∧
      (∀ pre v post, r = pre ++ v :: post → onBoard H r pre v ≤ q) ∧ ∃ x, dget d (.cust 1) = some x ∧ q < x := by
  refine ⟨exC40, { routes := [(1, [.source, .cust 1, .sink])], types := [(1, 0)], dropped := [] }, 5,
    [.source, .cust 1, .sink], [(1, [(.source, 5), (.cust 1, 7), (.sink, 7)])], [(.source, 5), (.cust 1, 7), (.sink, 7)],
    rfl, ?_, by decide +kernel, by simp, ?_, 7, by decide +kernel, by decide +kernel⟩
  · refine ⟨⟨[.cust 1], rfl, ?_, by simp [Along, exC40]⟩, by decide⟩
    intro v hv
    simp only [List.mem_singleton] at hv
    subst hv
    exact ⟨⟨1, rfl⟩, by simp [exC40]⟩
  · intro pre v post h
    match pre, h with
    | [], h => simp only [List.nil_append, List.cons.injEq] at h; rw [← h.1]; decide +kernel
    | [a], h =>
      simp only [List.cons_append, List.nil_append, List.cons.injEq] at h
      rw [← h.1, ← h.2.1]; decide +kernel
    | [a, b], h =>
      simp only [List.cons_append, List.nil_append, List.cons.injEq] at h
      rw [← h.1, ← h.2.1, ← h.2.2.1]; decide +kernel
    | a :: b :: c :: l, h => simp at h

/-- A network with waiting: the route Source, 1, 2, Sink; customer 2 opens late. -/
private def exC39 : Net where
  nodes := [.source, .cust 1, .cust 2, .sink]
  succ := fun u => match u with | .source => [.cust 1] | .cust 1 => [.cust 2] | .cust 2 => [.sink] | _ => []
  demand := fun v => match v with | .cust 1 => 4 | .cust 2 => 2 | _ => 0
  service := fun v => match v with | .cust 1 => 2 | .cust 2 => 1 | _ => 0
  lower := fun v => match v with | .source => 1 | .cust 2 => 20 | _ => 0
  time := fun _ _ => 3

private def exC39S : Solution := { routes := [(1, [.source, .cust 1, .cust 2, .sink])], types := [(1, 0)], dropped := [] }

private theorem exC39_route : IsSimpleRoute exC39 [.source, .cust 1, .cust 2, .sink] := by
  refine ⟨⟨[.cust 1, .cust 2], rfl, ?_, by simp [Along, exC39]⟩, by decide⟩
  intro v hv
  simp only [List.mem_cons, List.not_mem_nil, or_false] at hv
  rcases hv with rfl | rfl
  · exact ⟨⟨1, rfl⟩, by simp [exC39]⟩
  · exact ⟨⟨2, rfl⟩, by simp [exC39]⟩

/-- The hypotheses of the theorems above hold, and the reports are not trivial. -/
example : arrivalTime exC39 true exC39S = .ok [(1, [(.source, 1), (.cust 1, 4), (.cust 2, 20), (.sink, 24)])] ∧
    departureTime exC39 true exC39S = .ok [(1, [(.source, 1), (.cust 1, 6), (.cust 2, 21), (.sink, 24)])] ∧
    bestRoutesDuration exC39 true exC39S = .ok [(1, 12)] ∧
    nodeLoad exC39 [10] false false exC39S = .ok [(1, [(.source, 0), (.cust 1, 4), (.cust 2, 6), (.sink, 6)])] ∧
    bestRoutesLoad exC39 [10] false false exC39S = [(1, 6)] :=
  ⟨by decide +kernel, by decide +kernel, by decide +kernel, by decide +kernel, by decide +kernel⟩

/-- Departure at Source ignores a service time there. -/
example : departureTime { exC39 with service := fun _ => 5 } true exC39S =
    .ok [(1, [(.source, 1), (.cust 1, 14), (.cust 2, 25), (.sink, 33)])] := by decide +kernel

end Vrpy
