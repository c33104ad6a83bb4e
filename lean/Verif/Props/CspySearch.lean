import Verif.Props.Solve
import Verif.Proofs.EndToEnd

/-!
# C72, C73: the two searches of cspy, and what they leave behind
-/

namespace Vrpy

open Spec Cspy

/-! ## C72 -/

/-- A search of cspy found this path, with a negative reduced cost. -/
def Spec.Worthwhile (found : Option (ℚ × List Node)) (path : List Node) : Prop :=
  ∃ c, found = some (c, path) ∧ c < -(1 / 1000)

/-- The pool has a column with the arcs of this path. -/
def Spec.InPool (cols : List Column) (path : List Node) : Prop := ∃ c ∈ cols, c.edges = graphEdges (consecutive path)

theorem createRoute_fields {q : Cspy} {keys : List Node} {n : Nat} {path : List Node} {col : Column}
    (h : q.createRoute keys n path = .ok col) : col.path = some path ∧ col.edges = graphEdges (consecutive path) := by
  unfold createRoute at h
  simp only at h
  split at h
  · cases h
  · split at h
    · cases h
    · cases h
      exact ⟨rfl, rfl⟩

/-- One search. -/
theorem attempts_cons {q : Cspy} {keys : List Node} {oracle : Bool → Option (ℚ × List Node)} {cols cols' : List Column}
    {e : Bool} {es : List Bool} {more : Bool} (h : q.attempts keys oracle cols (e :: es) = .ok (cols', more)) :
    (more = true ∧ ∃ path col, Worthwhile (oracle e) path ∧ ¬ InPool cols path ∧ col.path = some path ∧ cols' = cols ++ [col]) ∨
      (more = false ∧ cols' = cols ∧ ∀ p, ¬ Worthwhile (oracle e) p) ∨
      (∃ path, Worthwhile (oracle e) path ∧ InPool cols path ∧ q.attempts keys oracle cols es = .ok (cols', more)) := by
  simp only [attempts] at h
  split at h
  · rename_i hn
    simp only [Except.ok.injEq, Prod.mk.injEq] at h
    refine Or.inr (Or.inl ⟨h.2.symm, h.1.symm, ?_⟩)
    rintro p ⟨c, hc, _⟩
    rw [hn] at hc
    cases hc
  · rename_i c path hp
    split at h
    · rename_i hneg
      split at h
      · cases h
      · rename_i col hcol
        obtain ⟨h1, h2⟩ := createRoute_fields hcol
        split at h
        · rename_i hany
          refine Or.inr (Or.inr ⟨path, ⟨c, hp, hneg⟩, ?_, h⟩)
          simp only [List.any_eq_true, decide_eq_true_eq] at hany
          obtain ⟨r, hr, he⟩ := hany
          exact ⟨r, hr, he.trans h2⟩
        · rename_i hany
          simp only [Except.ok.injEq, Prod.mk.injEq] at h
          refine Or.inl ⟨h.2.symm, path, col, ⟨c, hp, hneg⟩, ?_, h1, h.1.symm⟩
          rintro ⟨r, hr, he⟩
          apply hany
          simp only [List.any_eq_true, decide_eq_true_eq]
          exact ⟨r, hr, he.trans h2.symm⟩
    · rename_i hneg
      simp only [Except.ok.injEq, Prod.mk.injEq] at h
      refine Or.inr (Or.inl ⟨h.2.symm, h.1.symm, ?_⟩)
      rintro p ⟨c', hc, hlt⟩
      rw [hp] at hc
      simp only [Option.some.injEq, Prod.mk.injEq] at hc
      rw [← hc.1] at hlt
      exact hneg hlt

/-- **C72.** Pricing with cspy searches at most twice.  Unless elementary paths are asked for from the start (`elementary`, or
simultaneous distribution and collection), the first search admits repeated customers; elementary paths are searched
for only if the first search found a path that is in the pool already.  At most one column is added; it is made of a path of
negative reduced cost that is new.  If none is added, the first search found no path of negative reduced cost, or the search for elementary
paths was made and found none that is new. -/
theorem C72_two_searches {q : Cspy} {m : Res} {keys : List Node} {oracle : Cspy.Oracle} {cols cols' : List Column} {more : Bool}
    (hform : q.formulate = .ok m) (h : q.solve true keys oracle cols = .ok (cols', more)) :
    (more = true → ∃ path col, cols' = cols ++ [col] ∧ col.path = some path ∧ ¬ InPool cols path ∧
      ((q.elementary = false ∧ q.distributionCollection = false ∧ Worthwhile (oracle m false) path) ∨
       (Worthwhile (oracle m true) path ∧ (q.elementary = true ∨ q.distributionCollection = true ∨
          ∃ p, Worthwhile (oracle m false) p ∧ InPool cols p)))) ∧
    (more = false → cols' = cols ∧
      ((q.elementary = false ∧ q.distributionCollection = false ∧ ∀ p, ¬ Worthwhile (oracle m false) p) ∨
       ((q.elementary = true ∨ q.distributionCollection = true ∨ ∃ p, Worthwhile (oracle m false) p ∧ InPool cols p) ∧
          ∀ p, Worthwhile (oracle m true) p → InPool cols p))) := by
  have huniq : ∀ {f : Option (ℚ × List Node)} {p p'}, Worthwhile f p → Worthwhile f p' → p' = p := by
    rintro f p p' ⟨c, hc, _⟩ ⟨c', hc', _⟩
    rw [hc] at hc'
    simp only [Option.some.injEq, Prod.mk.injEq] at hc'
    exact hc'.2.symm
  have hlast : ∀ {A : Prop}, A → q.attempts keys (oracle m) cols [true] = .ok (cols', more) →
      (more = true → ∃ path col, cols' = cols ++ [col] ∧ col.path = some path ∧ ¬ InPool cols path ∧
        (Worthwhile (oracle m true) path ∧ A)) ∧
      (more = false → cols' = cols ∧ (A ∧ ∀ p, Worthwhile (oracle m true) p → InPool cols p)) := by
    intro A hA h
    rcases attempts_cons h with ⟨rfl, path, col, h1, h2, h3, h4⟩ | ⟨rfl, h1, h2⟩ | ⟨path, h1, h2, h3⟩
    · exact ⟨fun _ => ⟨path, col, h4, h3, h2, h1, hA⟩, fun h => (by cases h)⟩
    · exact ⟨fun h => (by cases h), fun _ => ⟨h1, hA, fun p hp => absurd hp (h2 p)⟩⟩
    · simp only [attempts, Except.ok.injEq, Prod.mk.injEq] at h3
      obtain ⟨rfl, rfl⟩ := h3
      exact ⟨fun h => (by cases h), fun _ => ⟨rfl, hA, fun p hp => huniq h1 hp ▸ h2⟩⟩
  unfold solve at h
  simp only [Bool.not_true, Bool.false_eq_true, if_false, hform] at h
  unfold runs at h
  by_cases hel : (!q.distributionCollection && !q.elementary) = true
  · rw [if_pos hel] at h
    simp only [Bool.and_eq_true, Bool.not_eq_true'] at hel
    rcases attempts_cons h with ⟨rfl, path, col, h1, h2, h3, h4⟩ | ⟨rfl, h1, h2⟩ | ⟨path, h1, h2, h3⟩
    · exact ⟨fun _ => ⟨path, col, h4, h3, h2, Or.inl ⟨hel.2, hel.1, h1⟩⟩, fun h => (by cases h)⟩
    · exact ⟨fun h => (by cases h), fun _ => ⟨h1, Or.inl ⟨hel.2, hel.1, h2⟩⟩⟩
    · obtain ⟨a, b⟩ := hlast (A := q.elementary = true ∨ q.distributionCollection = true ∨
        ∃ p, Worthwhile (oracle m false) p ∧ InPool cols p) (Or.inr (Or.inr ⟨path, h1, h2⟩)) h3
      refine ⟨fun hm => ?_, fun hm => ⟨(b hm).1, Or.inr (b hm).2⟩⟩
      obtain ⟨p, col, a1, a2, a3, a4⟩ := a hm
      exact ⟨p, col, a1, a2, a3, Or.inr a4⟩
  · rw [if_neg hel] at h
    simp only [Bool.and_eq_true, Bool.not_eq_true', not_and_or, Bool.not_eq_false] at hel
    obtain ⟨a, b⟩ := hlast (A := q.elementary = true ∨ q.distributionCollection = true ∨
      ∃ p, Worthwhile (oracle m false) p ∧ InPool cols p) (hel.elim (fun h => Or.inr (Or.inl h)) Or.inl) h
    refine ⟨fun hm => ?_, fun hm => ⟨(b hm).1, Or.inr (b hm).2⟩⟩
    obtain ⟨p, col, a1, a2, a3, a4⟩ := a hm
    exact ⟨p, col, a1, a2, a3, Or.inr a4⟩

/-- **C72**, the costly search is spared: unless the first search found a path that is in the pool already, it does not matter
what the search for elementary paths would find. -/
theorem C72_spared {q : Cspy} {m : Res} {run : Bool} {keys : List Node} {oracle oracle' : Cspy.Oracle} {cols : List Column}
    (hform : q.formulate = .ok m) (hel : q.elementary = false) (hdc : q.distributionCollection = false)
    (hfirst : oracle m false = oracle' m false) (hnew : ∀ p, Worthwhile (oracle m false) p → ¬ InPool cols p) :
    q.solve run keys oracle cols = q.solve run keys oracle' cols := by
  unfold solve
  cases run with
  | false => rfl
  | true =>
    simp only [Bool.not_true, Bool.false_eq_true, if_false, hform, runs, hdc, hel, Bool.not_false, Bool.and_self, if_true]
    have key : ∀ o : Bool → Option (ℚ × List Node), o false = oracle m false →
        q.attempts keys o cols [false, true] = q.attempts keys o cols [false] := by
      intro o ho
      simp only [attempts, ho]
      cases hf : oracle m false with
      | none => rfl
      | some x =>
        obtain ⟨c, path⟩ := x
        simp only
        by_cases hc : c < -(1 / 1000)
        · rw [if_pos hc, if_pos hc]
          cases hcr : q.createRoute keys cols.length path with
          | error e => rfl
          | ok col =>
            simp only
            have hany : ¬ (cols.any (fun r => decide (r.edges = col.edges)) = true) := by
              intro hany
              simp only [List.any_eq_true, decide_eq_true_eq] at hany
              obtain ⟨r, hr, he⟩ := hany
              exact hnew path ⟨c, hf, hc⟩ ⟨r, hr, he.trans (createRoute_fields hcr).2⟩
            rw [if_neg hany, if_neg hany]
        · rw [if_neg hc, if_neg hc]
    rw [key _ rfl, key _ hfirst.symm]
    simp only [attempts, hfirst]

/-! ## C73 -/

/-- What cspy promises to find: if there is a path (without repeated nodes, if asked for) within the limits with a
negative reduced cost, it finds one, not necessarily the best. -/
def Spec.CspyFinds (q : Cspy) (oracle : Cspy.Oracle) : Prop :=
  ∀ m e path, path.head? = some .source → path.getLast? = some .sink → Along (fun u v => v ∈ q.G.succ u) path →
    (e = true → path.Nodup) → WithinLimits q m path → legSum q.weight path < -(1 / 1000) → ∃ p, Worthwhile (oracle m e) p

theorem isRoute_ends {G : Net} {r : List Node} (h : IsRoute G r) :
    r.head? = some .source ∧ r.getLast? = some .sink ∧ Along (fun u v => v ∈ G.succ u) r := by
  obtain ⟨mid, rfl, _, h⟩ := h
  exact ⟨rfl, routeOf_getLast mid, h⟩

/-- The same up to a tolerance for each path: a path of negative reduced cost is found only if there is one whose reduced cost is
below the tolerance. -/
def Spec.CspyFindsUpTo (tol : List Node → ℚ) (q : Cspy) (oracle : Cspy.Oracle) : Prop :=
  ∀ m e path, path.head? = some .source → path.getLast? = some .sink → Along (fun u v => v ∈ q.G.succ u) path →
    (e = true → path.Nodup) → WithinLimits q m path → legSum q.weight path < -tol path → ∃ p, Worthwhile (oracle m e) p

theorem no_path_left {q : Cspy} {m : Res} {keys : List Node} {oracle : Cspy.Oracle} {cols cols' : List Column}
    {tol : List Node → ℚ} (hG : WellFormed q.G) (hsound : CspySound q oracle) (hfinds : CspyFindsUpTo tol q oracle)
    (hform : q.formulate = .ok m)
    (hpool : ∀ c ∈ cols, ∀ p, IsSimpleRoute q.G p → c.edges = graphEdges (consecutive p) → -(1 / 1000) ≤ legSum q.weight p)
    (h : q.solve true keys oracle cols = .ok (cols', false)) {r : List Node} (hr : IsSimpleRoute q.G r)
    (hlim : WithinLimits q m r) : -tol r ≤ legSum q.weight r := by
  by_contra hlt
  push Not at hlt
  obtain ⟨r1, r2, r3⟩ := isRoute_ends hr.1
  have hfind : ∀ e, ∃ p, Worthwhile (oracle m e) p := fun e => hfinds m e r r1 r2 r3 (fun _ => hr.2) hlim hlt
  rcases ((C72_two_searches hform h).2 rfl).2 with ⟨_, _, hno⟩ | ⟨_, hall⟩
  · obtain ⟨p, hp⟩ := hfind false
    exact hno p hp
  · obtain ⟨p, hp⟩ := hfind true
    obtain ⟨c, hc, he⟩ := hall p hp
    obtain ⟨z, hz, hneg⟩ := hp
    obtain ⟨o1, o2, o3, o4, o5, _⟩ := hsound m true z p hz
    have := hpool c hc p ⟨route_of_walk hG o1 o2 o3, o5 rfl⟩ he
    rw [← o4] at this
    linarith

/-- **C73**, one pricing problem: if pricing with cspy adds nothing, no simple route within the limits has a reduced
cost below `-1/1000`, provided the routes in the pool do not.  What is missing: the routes in the pool may have such a reduced cost
(`C73_bound_counterexample`, `C73_mixed_fleet_counterexample`, `C73_greedy_counterexample`). -/
theorem C73_no_route_left_partial {q : Cspy} {m : Res} {keys : List Node} {oracle : Cspy.Oracle} {cols cols' : List Column}
    (hG : WellFormed q.G) (hsound : CspySound q oracle) (hfinds : CspyFinds q oracle) (hform : q.formulate = .ok m)
    (hpool : ∀ c ∈ cols, ∀ p, IsSimpleRoute q.G p → c.edges = graphEdges (consecutive p) → -(1 / 1000) ≤ legSum q.weight p)
    (h : q.solve true keys oracle cols = .ok (cols', false)) {r : List Node} (hr : IsSimpleRoute q.G r)
    (hlim : WithinLimits q m r) : -(1 / 1000) ≤ legSum q.weight r :=
  no_path_left (tol := fun _ => 1 / 1000) hG hsound hfinds hform hpool h hr hlim

/-- Routes within the limits on stops, load and duration are within the limits of cspy, if there is a limit on the stops
(otherwise cspy limits the length by itself, `C22_length_limit_partial`). -/
theorem within_of_admissible {q : Cspy} {m : Res} {n : Nat} {r : List Node} (hG : WellFormed q.G) (hform : q.formulate = .ok m)
    (hcu : q.custom = false) (hn : q.numStops = some n) (hn0 : n ≠ 0) (hdem : ∀ v ∈ q.G.nodes, 0 ≤ q.G.demand v)
    (hd : q.G.demand .source = 0) (hserv : ∀ v ∈ q.G.nodes, 0 ≤ q.G.service v)
    (htime : ∀ u v, v ∈ q.G.succ u → 0 ≤ q.G.time u v) (hroute : IsRoute q.G r)
    (hstops : WithinStops q.numStops (stops r).length) (hload : WithinCapacity q.caps q.vehicleType (load q.G r))
    (hdur : Within q.duration (Spec.duration q.G r)) : WithinLimits q m r := by
  obtain ⟨f1, f2, f3, f4, f5, f6, _⟩ := formulate_ok hform
  obtain ⟨mid, rfl, _, hal⟩ := id hroute
  rw [stops_routeOf (route_customers hroute)] at hstops
  have hmem := route_nodes hG hroute
  have hcu' : ¬ q.custom = true := by simp [hcu]
  have hdc : q.distributionCollection = false := by
    simp only [custom, Bool.or_eq_false_iff] at hcu
    exact hcu.1.2
  have htw : q.timeWindows = false := by
    simp only [custom, Bool.or_eq_false_iff] at hcu
    exact hcu.1.1
  have hlim := legLimit_some hn0 hn
  unfold legLimit at hlim
  rw [hlim] at f1
  obtain ⟨u1, u2⟩ := consume_unused hdc (mid ++ [Node.sink]) {} .source
  have hw := consume_windows htw (mid ++ [Node.sink]) {} .source rfl
  have ht := consume_travel hcu (mid ++ [Node.sink]) {} .source
  have htot : 0 ≤ (q.G.nodes.map q.G.demand).sum := sum_nonneg_of hdem (fun _ h => h)
  have htt : 0 ≤ (q.G.edges.map (fun e => q.G.time e.1 e.2)).sum := by
    apply List.sum_nonneg
    intro x hx
    obtain ⟨⟨u, v⟩, he, rfl⟩ := List.mem_map.1 hx
    exact htime u v ((Net.mem_edges hG u v).1 he)
  have htravel : 0 ≤ travel q.G (routeOf mid) := by
    rw [travel, legSum_eq]
    apply List.sum_nonneg
    intro x hx
    obtain ⟨⟨u, v⟩, he, rfl⟩ := List.mem_map.1 hx
    exact htime u v ((along_iff _ _).1 hal u v he)
  have hcd : 0 ≤ m.collect ∧ 0 ≤ m.deliver := by
    by_cases hcap : q.caps = []
    · rw [(f2 hcap).2.1, (f2 hcap).2.2]; exact ⟨htot, htot⟩
    · rw [((f3 hcap).2.2 hdc).1, ((f3 hcap).2.2 hdc).2]; exact ⟨htot, htot⟩
  unfold WithinLimits
  rw [if_neg hcu']
  show m.within (q.consume {} .source (mid ++ [Node.sink]))
  rw [within_iff, u1, u2, hw, consume_stops, f1, f6, htw]
  refine ⟨⟨by positivity, ?_⟩, ?_, ?_, ⟨le_refl _, by simp⟩, ⟨le_refl _, hcd.1⟩, ⟨le_refl _, hcd.2⟩⟩
  · have : (mid.length : ℚ) ≤ n := by exact_mod_cast hstops n hn hn0
    simp only [zero_add, List.length_append, List.length_singleton]
    push_cast
    linarith
  · by_cases hcap : q.caps = []
    · have hcnt : ¬ q.counts := by simp [counts, hcu, hcap]
      rw [consume_load_not hcnt, (f2 hcap).1]
      exact ⟨le_refl _, htot⟩
    · rw [consume_load (Or.inr hcap)]
      obtain ⟨c, hc, hle⟩ := hload hcap
      rw [(f3 hcap).1] at hc
      rw [load_routeOf hd] at hle
      have := Option.some.inj hc
      rw [zero_add, this]
      exact ⟨sum_nonneg_of hdem hmem, hle⟩
  · rw [ht]
    cases hact : active q.duration with
    | none =>
      rw [f5 hact, htw]
      simp only [if_true, add_zero, Bool.false_eq_true, if_false, initialMax]
      exact ⟨le_refl _, htt⟩
    | some d =>
      rw [f4 d hact]
      simp only [reduceCtorEq, if_false, zero_add]
      refine ⟨htravel, ?_⟩
      obtain ⟨h1, h2⟩ := active_eq_some.1 hact
      have hle := hdur d h1 h2
      have hs : 0 ≤ ((routeOf mid).map q.G.service).sum := by
        refine sum_nonneg_of hserv ?_
        intro v hv
        rw [routeOf] at hv
        rcases List.mem_cons.1 hv with rfl | hv
        · exact hG.source_mem
        · exact hmem v hv
      unfold Spec.duration at hle
      show travel q.G (routeOf mid) ≤ d
      linarith

theorem sum_subperm_le {α : Type*} {f : α → ℚ} {l l' : List α} (h : l.Subperm l') (hf : ∀ x ∈ l', 0 ≤ f x) :
    (l.map f).sum ≤ (l'.map f).sum := by
  obtain ⟨l'', hp, hs⟩ := h
  rw [← (hp.map f).sum_eq]
  refine List.Sublist.sum_le_sum (hs.map f) ?_
  intro x hx
  obtain ⟨y, hy, rfl⟩ := List.mem_map.1 hx
  exact hf y hy

/-- Without opening times, the time that cspy computes is at most the duration. -/
theorem time_le_duration {q : Cspy} (hcu : q.custom = true) (hlow : ∀ v ∈ q.G.nodes, q.G.lower v ≤ 0) (rest : List Node) :
    ∀ (r : Res) (i : Node), 0 ≤ r.time → (∀ v ∈ i :: rest, v ∈ q.G.nodes ∧ 0 ≤ q.G.service v) →
      (∀ u v, (u, v) ∈ consecutive (i :: rest) → 0 ≤ q.G.time u v) →
      (q.consume r i rest).time ≤ r.time + Spec.duration q.G (i :: rest) := by
  induction rest with
  | nil =>
    intro r i _ hv _
    have := (hv i (by simp)).2
    simp only [consume, Spec.duration, travel, legSum, List.map_cons, List.map_nil, List.sum_cons, List.sum_nil]
    linarith
  | cons j rest ih =>
    intro r i hr hv ht
    have h1 := (hv i (by simp)).2
    have h2 := ht i j (by simp [consecutive])
    have h3 := hlow j (hv j (by simp)).1
    have hstep : (q.ref r i j).time = r.time + q.G.service i + q.G.time i j := by
      unfold ref
      rw [if_pos hcu]
      simp only [refFwd]
      rw [max_eq_left (by linarith)]
    rw [consume]
    refine (ih _ j (by rw [hstep]; linarith) (fun v hv' => hv v (List.mem_cons_of_mem _ hv')) (fun u v huv => ht u v (by
      rw [consecutive_cons_cons]
      exact List.mem_cons_of_mem _ huv))).trans ?_
    rw [hstep]
    simp only [Spec.duration, travel, legSum, List.map_cons, List.sum_cons]
    linarith

/-- The same with a custom resource function, for problems with time windows but no limit on the duration, or with collection and
a capacity. -/
theorem within_of_custom {q : Cspy} {m : Res} {n : Nat} {mid : List Node} (hG : WellFormed q.G) (hform : q.formulate = .ok m)
    (hcu : q.custom = true) (hn : q.numStops = some n) (hn0 : n ≠ 0) (hdem : ∀ v ∈ q.G.nodes, 0 ≤ q.G.demand v)
    (hd : q.G.demand .source = 0 ∧ q.G.demand .sink = 0) (hserv : ∀ v ∈ q.G.nodes, 0 ≤ q.G.service v)
    (htime : ∀ u v, v ∈ q.G.succ u → 0 ≤ q.G.time u v) (hroute : IsSimpleRoute q.G (routeOf mid))
    (hstops : WithinStops q.numStops (stops (routeOf mid)).length)
    (hload : WithinCapacity q.caps q.vehicleType (load q.G (routeOf mid)))
    (htw : q.timeWindows = true → OnTime q.G (routeOf mid) ∧ StartFits q.G mid ∧ active q.duration = none)
    (hno : q.timeWindows = false → (∀ v ∈ q.G.nodes, q.G.lower v ≤ 0) ∧
      (active q.duration = none → ∀ v ∈ q.G.nodes, q.G.service v = 0) ∧ Within q.duration (Spec.duration q.G (routeOf mid)))
    (hdc : q.distributionCollection = true → (∀ v ∈ q.G.nodes, 0 ≤ q.G.collect v) ∧ q.G.collect .source = 0 ∧
      q.G.collect .sink = 0 ∧
      ∃ c, q.caps[q.vehicleType]? = some c ∧ GoodsWithin q.G c (routeOf mid)) : WithinLimits q m (routeOf mid) := by
  obtain ⟨f1, f2, f3, f4, f5, f6, _⟩ := formulate_ok hform
  have hlim := legLimit_some hn0 hn
  unfold legLimit at hlim
  rw [hlim] at f1
  have hmem := route_nodes hG hroute.1
  have hcnt : q.counts := Or.inl hcu
  obtain ⟨_, _, _, hal⟩ := id hroute.1
  have hal' := (along_iff _ _).1 hal
  have hnn : ∀ u v, v ∈ q.G.succ u → 0 ≤ q.G.service u + q.G.time u v := fun u v huv =>
    add_nonneg (hserv u (hG.edge_mem u v huv).1) (htime u v huv)
  rw [stops_routeOf (route_customers hroute.1)] at hstops
  -- time and windows
  have hT : ∀ p, p ≠ [] → p <+: routeOf mid →
      (0 ≤ (q.consumed p).time ∧ (q.consumed p).time ≤ m.time) ∧ (q.consumed p).windows ≤ m.windows := by
    cases hw : q.timeWindows with
    | true =>
      obtain ⟨t1, t2, t3⟩ := htw hw
      exact (C19_on_time_partial hform hw t3 t2 hroute.1 hnn).2 t1
    | false =>
      obtain ⟨t1, t2, t3⟩ := hno hw
      have hmem' : ∀ v ∈ routeOf mid, v ∈ q.G.nodes := by
        intro v hv
        rw [routeOf] at hv
        rcases List.mem_cons.1 hv with rfl | hv
        · exact hG.source_mem
        · exact hmem v hv
      have hmax : Spec.duration q.G (routeOf mid) ≤ m.time := by
        cases hact : active q.duration with
        | some d =>
          rw [f4 d hact]
          obtain ⟨h1, h2⟩ := active_eq_some.1 hact
          exact t3 d h1 h2
        | none =>
          rw [f5 hact, hw]
          simp only [Bool.false_eq_true, if_false, initialMax]
          have h0 : ((routeOf mid).map q.G.service).sum = 0 := by
            rw [List.map_congr_left (fun v hv => t2 hact v (hmem' v hv))]
            simp
          unfold Spec.duration travel
          rw [h0, add_zero, legSum_eq]
          refine sum_subperm_le ?_ ?_
          · refine List.Nodup.subperm (consecutive_nodup hroute.2) ?_
            rintro ⟨u, v⟩ he
            exact (Net.mem_edges hG u v).2 (hal' u v he)
          · rintro ⟨u, v⟩ he
            exact htime u v ((Net.mem_edges hG u v).1 he)
      intro p hne hp
      cases p with
      | nil => exact absurd rfl hne
      | cons x p =>
        rw [routeOf, List.cons_prefix_cons] at hp
        obtain ⟨rfl, hp⟩ := hp
        have h1 := time_mono hcu (mid ++ [Node.sink]) {} .source (fun u v huv => hnn u v (hal' u v huv)) p hp
        have h2 := time_le_duration hcu t1 (mid ++ [Node.sink]) {} .source (le_refl _)
          (fun v hv => ⟨hmem' v hv, hserv v (hmem' v hv)⟩) (fun u v huv => htime u v (hal' u v huv))
        refine ⟨⟨h1.1, h1.2.trans (h2.trans ?_)⟩, ?_⟩
        · rw [zero_add]
          exact hmax
        · rw [f6, hw, consumed, consume_windows hw _ _ _ rfl]
          simp
  -- loads
  have hL : ∀ p, p ≠ [] → p <+: routeOf mid →
      (0 ≤ (q.consumed p).load ∧ (q.consumed p).load ≤ m.load) ∧
      (0 ≤ (q.consumed p).collect ∧ (q.consumed p).collect ≤ m.collect) ∧
      (0 ≤ (q.consumed p).deliver ∧ (q.consumed p).deliver ≤ m.deliver) := by
    cases hc : q.distributionCollection with
    | true =>
      obtain ⟨c0, c1, c2, c, c3, c4⟩ := hdc hc
      exact (C20_goods hG hform hc c3 hd.2 c1 c2 ⟨hdem, c0⟩ hroute.1).2 c4
    | false =>
      have htot : 0 ≤ q.initialMax.collect ∧ 0 ≤ q.initialMax.deliver :=
        ⟨sum_nonneg_of hdem (fun _ h => h), sum_nonneg_of hdem (fun _ h => h)⟩
      have hcd : 0 ≤ m.collect ∧ 0 ≤ m.deliver := by
        by_cases hcap : q.caps = []
        · rw [(f2 hcap).2.1, (f2 hcap).2.2]; exact htot
        · rw [((f3 hcap).2.2 hc).1, ((f3 hcap).2.2 hc).2]; exact htot
      have hmax : ((mid ++ [Node.sink]).map q.G.demand).sum ≤ m.load := by
        rw [load_routeOf hd.1] at hload
        by_cases hcap : q.caps = []
        · rw [(f2 hcap).1]
          refine sum_subperm_le (List.Nodup.subperm ?_ hmem) hdem
          have := hroute.2
          rw [routeOf] at this
          exact (List.nodup_cons.1 this).2
        · obtain ⟨c, hc, hle⟩ := hload hcap
          rw [(f3 hcap).1] at hc
          cases hc
          exact hle
      intro p hne hp
      cases p with
      | nil => exact absurd rfl hne
      | cons x p =>
        rw [routeOf, List.cons_prefix_cons] at hp
        obtain ⟨rfl, hp⟩ := hp
        obtain ⟨u1, u2⟩ := consume_unused hc p {} .source
        have hpre := sum_prefix_le hdem hmem hp
        rw [consumed, u1, u2, consume_load hcnt]
        refine ⟨⟨?_, ?_⟩, ⟨le_refl _, hcd.1⟩, ⟨le_refl _, hcd.2⟩⟩
        · simp only [zero_add]
          exact sum_nonneg_of hdem (fun v hv => hmem v (hp.subset hv))
        · simp only [zero_add]
          linarith
  unfold WithinLimits
  rw [if_pos hcu]
  intro p hne hp
  obtain ⟨t1, t2⟩ := hT p hne hp
  obtain ⟨l1, l2, l3⟩ := hL p hne hp
  rw [within_iff]
  cases p with
  | nil => exact absurd rfl hne
  | cons x p =>
    rw [routeOf, List.cons_prefix_cons] at hp
    obtain ⟨rfl, hp⟩ := hp
    refine ⟨?_, l1, t1, ⟨windows_nonneg _ _ _ (le_refl _), t2⟩, l2, l3⟩
    have h1 : ((mid.length : ℕ) : ℚ) ≤ n := by exact_mod_cast hstops n hn hn0
    have h2 : (p.length : ℚ) ≤ mid.length + 1 := by
      have := hp.length_le
      simp only [List.length_append, List.length_singleton] at this
      exact_mod_cast this
    rw [consumed, consume_stops, f1]
    simp only [zero_add]
    exact ⟨by positivity, by linarith⟩

/-- A column made of a route, for the first vehicle type: its graph has the arcs of the route, and if no customer is repeated,
the column stands for the route. -/
def Spec.PathColumn (G : Net) (c : Column) : Prop :=
  c.vehicleType = 0 ∧ ∃ r, IsRoute G r ∧ (∀ e ∈ consecutive r, e ∈ c.edges) ∧ (r.Nodup → Encodes G c r ∧ Draws c r)

theorem pathColumn_edges {G : Net} {c : Column} {p : List Node} (h : PathColumn G c) (hp : IsSimpleRoute G p)
    (he : c.edges = graphEdges (consecutive p)) : Encodes G c p ∧ Draws c p := by
  obtain ⟨_, r, hr, h1, h2⟩ := h
  obtain ⟨a1, a2, _⟩ := isRoute_ends hr
  obtain ⟨b1, b2, _⟩ := isRoute_ends hp.1
  have : r = p := walk_unique p hp.2 r .source .sink a1 b1 a2 b2 (by
    intro e he'
    have := h1 e he'
    rw [he, mem_graphEdges] at this
    exact this)
  subst this
  exact h2 hp.2

/-- Dual feasibility for the columns: the dual values of what a column serves and of its vehicle are at most its cost. -/
def Spec.ColumnsPriced (M : Master) (cols : List Column) (a : Master.Answer) : Prop :=
  ∀ c ∈ cols, ∀ r, Draws c r → ((stops r).map a.visitDual).sum +
    (if c.vehicleType < M.numVehicles.length then a.fleetDual c.vehicleType else 0) ≤ c.cost

namespace Solve

variable {cfg : SolveCfg} {env : Env}

/-- Without greedy pricing, an iteration that finds nothing leaves the pool alone. -/
theorem vehicleLoop_fails {d : Duals} {hh : Heur} (hg : usesGreedy cfg = false) {ks : List Nat} {st st' : SolveState}
    (h : vehicleLoop cfg env d hh ks st = .ok st') (hm : st'.more = false) : st'.cols = st.cols := by
  induction ks generalizing st with
  | nil =>
    simp only [vehicleLoop, Except.ok.injEq] at h
    rw [h]
  | cons k ks ih =>
    simp only [vehicleLoop] at h
    have hgr : greedyPhase cfg env d k st = .ok st := by
      unfold greedyPhase
      rw [hg]
      rfl
    rw [hgr] at h
    simp only at h
    cases hp : priceAll cfg env d k (jobs cfg hh st.cols) st.tick st.cols with
    | error e => simp [hp] at h
    | ok x =>
      obtain ⟨cols, more, t⟩ := x
      simp only [hp] at h
      cases more with
      | true =>
        simp only at h
        unfold register at h
        split at h
        · cases h
        · unfold addToMaster at h
          split at h
          · cases h
          · cases h
            cases hm
      | false =>
        simp only at h
        rcases priceAll_step hp with ⟨_, h1, _⟩ | ⟨h1, _⟩
        · rw [ih h, h1]
        · cases h1

/-- Pricing with cspy alone, for one vehicle type, yields columns made of routes. -/
theorem price_path {d : Duals} (hcspy : cfg.cspy = true) (hg : usesGreedy cfg = false) (hK : cfg.K = 1)
    (hG : WellFormed cfg.M.G) (hsound : ∀ t q, CspySound q (env.cspy t q)) (hpaths : ∀ t, PathsOk (env.paths t)) :
    PriceOk cfg env d (PathColumn cfg.M.G) := by
  constructor
  · intro k hk t route cols s cols' _ h c hc
    unfold price at h
    cases hs : subProblem cfg.M.G d k route (env.paths t) s with
    | error e => simp [hs] at h
    | ok wS =>
      obtain ⟨w, S⟩ := wS
      simp only [hs, hcspy, if_true] at h
      have hsub := C15_subgraph hs
      obtain ⟨m, e, z, path, col, hform, horacle, _, hneg, hcol, hnew, rfl⟩ := cspy_solve_inv h
      obtain ⟨o1, o2, o3, _⟩ := hsound t _ m e z path horacle
      have hroute := route_of_walk (subProblem_wf hG (hpaths t) hs) o1 o2 o3
      rw [List.mem_append, List.mem_singleton] at hc
      rcases hc with hc | rfl
      · exact Or.inl hc
      right
      unfold createRoute at hcol
      simp only at hcol
      split at hcol
      · cases hcol
      · rename_i x hx
        split at hcol
        · cases hcol
        · simp only [Except.ok.injEq] at hcol
          obtain ⟨mid, rfl, h1, h2⟩ := id hroute
          have hroute' : IsRoute cfg.M.G (routeOf mid) := by
            refine ⟨mid, rfl, fun v hv => ⟨(h1 v hv).1, hsub.nodes v (h1 v hv).2⟩, ?_⟩
            rw [along_iff] at h2 ⊢
            exact fun u v huv => hsub.arcs u v (h2 u v huv)
          subst hcol
          refine ⟨by show k = 0; omega, routeOf mid, hroute', fun e he => (mem_graphEdges _ e).2 he, ?_⟩
          intro hnd
          have henc : Encodes S.G { name := if (routeOf mid).Nodup then ColName.elem (cols.length + 1) else .nonElem (cols.length + 1),
                                    path := some (routeOf mid), nodes := graphNodes (consecutive (routeOf mid)),
                                    edges := graphEdges (consecutive (routeOf mid)), cost := x, vehicleType := k } (routeOf mid) := by
            refine encodes_of_perm hnd (by simp [routeOf]) (List.Perm.refl _) rfl rfl ?_
            rw [sumEdgeCosts_ok] at hx ⊢
            have hp := graphEdges_perm (consecutive_nodup hnd)
            refine ⟨fun e he => hx.1 e (hp.mem_iff.2 he), ?_⟩
            rw [hx.2]
            exact (hp.map _).sum_eq
          refine ⟨⟨henc.nodes, henc.edges, ?_⟩, henc.nodes, henc.edges, fun p hp => (Option.some.inj hp).symm⟩
          rw [henc.cost, Spec.cost, Spec.cost, hsub.cost]
  · intro k hk st st' h c hc
    unfold greedyPhase at h
    rw [hg] at h
    cases h
    exact Or.inl hc

/-- Column generation with cspy, one vehicle type, a fixed strategy and no greedy pricing has come to its end before a limit is
reached: for the dual values of the last master, no route with the property `F` has a reduced cost that is too negative. -/
theorem nothing_left_upTo {st st' : SolveState} {m : Heur} {fuel : Nat} {F : List Node → Prop}
    {tol : List Node → ℚ} (hnum : Numbered st.cols)
    (hmc : st.mcols = st.cols) (hmore : st.more = true) (hpool : ∀ c ∈ st.cols, PathColumn cfg.M.G c)
    (hp : cfg.pricing = .fixed m) (hG : WellFormed cfg.M.G) (hcspy : cfg.cspy = true) (hK : cfg.K = 1)
    (hg : usesGreedy cfg = false) (hspan : cfg.M.globalSpan = false)
    (hF : ∀ (q : Cspy) res r, q.G = cfg.M.G → q.vehicleType = 0 → q.caps = cfg.caps → q.numStops = cfg.numStops →
      q.duration = cfg.duration → q.timeWindows = cfg.timeWindows → q.pickupDelivery = cfg.pickupDelivery →
      q.distributionCollection = cfg.distributionCollection → q.formulate = .ok res → F r →
      IsSimpleRoute q.G r ∧ WithinLimits q res r)
    (hsound : ∀ t q, CspySound q (env.cspy t q)) (hfinds : ∀ t q, WellFormed q.G → CspyFindsUpTo tol q (env.cspy t q))
    (hpaths : ∀ t, PathsOk (env.paths t))
    (hpriced : ∀ n stm, Trace cfg env false st n stm → (env.master stm.tick (cfg.M.lp stm.mcols true)).optimal = true →
      ∀ c ∈ stm.mcols, ∀ p, c.vehicleType = 0 → Draws c p →
        ((stops p).map (env.master stm.tick (cfg.M.lp stm.mcols true)).visitDual).sum +
          ((cfg.M.duals stm.cols (env.master stm.tick (cfg.M.lp stm.mcols true))).fleet.getD []).getD 0 0 ≤ c.cost)
    (h : columnGeneration cfg env false fuel st = .ok (some st'))
    (hlim : limitReached cfg st' = false) (htime : env.timeUp st'.tick = false) :
    ∃ n stm, Trace cfg env false st n stm ∧ (env.master stm.tick (cfg.M.lp stm.mcols true)).optimal = true ∧
      st'.bounds.getLast? =
        some ((cfg.M.objective stm.mcols).eval (env.master stm.tick (cfg.M.lp stm.mcols true)).point) ∧
      ∀ r, F r → ∃ w, reducedCosts cfg.M.G (cfg.M.duals stm.cols (env.master stm.tick (cfg.M.lp stm.mcols true))) 0 none = .ok w ∧
        -tol r ≤ legSum w r := by
  rcases C34_exact_failed_partial hnum hmc hmore hp h with h' | h' | ⟨n, stm, d, cost, st1, htr, hsm, hf, hmo, hfail⟩
  · rw [htime] at h'; cases h'
  · rw [hlim] at h'; cases h'
  obtain ⟨d', cost', st1', hh, st2, st3, e1, e2, e3, e4⟩ := findColumns_inv hf
  rw [hsm] at e1
  simp only [Except.ok.injEq, Prod.mk.injEq] at e1
  obtain ⟨rfl, rfl, rfl⟩ := e1
  obtain ⟨c1, _, _, c4, _, _, _, _, c9, _⟩ := count_step e4
  obtain ⟨m1, m2, _⟩ := solveMaster_step hsm
  obtain ⟨n1, n2, _⟩ := nextStrategy_step e2
  have hcols : st'.cols = stm.cols := by
    rw [c1, vehicleLoop_fails hg e3 (by rw [← c4]; exact hmo), n1, m1]
  have hlast : st'.bounds.getLast? = some cost := by rw [c9]; simp
  obtain ⟨⟨_, hinv⟩, _, hpath⟩ := Trace.pool (Q := PathColumn cfg.M.G) ⟨hnum, hmc⟩
    (fun _ _ _ _ _ _ _ _ => price_path hcspy hg hK hG hsound hpaths) htr
  simp only [solveMaster, Bool.false_eq_true, if_false, solveRelaxed] at hsm
  by_cases hopt : (env.master stm.tick (cfg.M.lp stm.mcols true)).optimal = true
  · rw [if_pos hopt] at hsm
    simp only [Except.ok.injEq, Prod.mk.injEq] at hsm
    obtain ⟨rfl, rfl, _⟩ := hsm
    have hcp := hpriced n stm htr hopt
    refine ⟨n, stm, htr, hopt, hlast, ?_⟩
    generalize env.master stm.tick (cfg.M.lp stm.mcols true) = a at hcp hfail
    intro r hr
    obtain ⟨cols, f1, f2, hx, _⟩ := hfail 0 (by omega)
    have hceq : cols = stm.cols := by
      rw [hcols] at f2
      exact f2.sublist.antisymm f1.sublist
    subst hceq
    obtain ⟨t, ht⟩ := hx hspan
    unfold price subProblem at ht
    cases hw : reducedCosts cfg.M.G (cfg.M.duals stm.cols a) 0 none with
    | error err => simp [hw] at ht
    | ok w =>
      refine ⟨w, rfl, ?_⟩
      simp only [hw, hcspy, if_true] at ht
      generalize hq : ({ G := cfg.M.G, weight := w, vehicleType := 0, caps := cfg.caps, numStops := cfg.numStops,
                         duration := cfg.duration, timeWindows := cfg.timeWindows, pickupDelivery := cfg.pickupDelivery,
                         distributionCollection := cfg.distributionCollection, elementary := cfg.elementary } : Cspy) = q at ht
      have hqG : q.G = cfg.M.G := by rw [← hq]
      have hqw : q.weight = w := by rw [← hq]
      cases hform : q.formulate with
      | error err => simp [Cspy.solve, hform] at ht
      | ok res =>
        obtain ⟨s1, s2⟩ := hF q res r hqG (by rw [← hq]) (by rw [← hq]) (by rw [← hq]) (by rw [← hq]) (by rw [← hq])
          (by rw [← hq]) (by rw [← hq]) hform hr
        rw [← hqw]
        refine no_path_left (by rw [hqG]; exact hG) (hsound t q) (hfinds t q (by rw [hqG]; exact hG)) hform ?_ ht s1 s2
        intro c hc p hps hce
        rw [hqG] at hps
        rw [hqw]
        have hpc : PathColumn cfg.M.G c := (hpath c hc).elim (hpool c) id
        obtain ⟨henc, hdraw⟩ := pathColumn_edges hpc hps hce
        have hvis : (cfg.M.duals stm.cols a).visit.map Prod.fst = cfg.M.G.customers := by
          simp [Master.duals, Function.comp_def]
        have hrc := C14_reduced_costs hG (by rw [hvis]; exact hG.nodes_nodup.filter _)
          (by rw [hvis]; exact fun h => (mem_customers.1 h).2.1 rfl) hw hps.1
        have hsum : ((stops p).map (fun v => (dget (cfg.M.duals stm.cols a).visit v).getD 0)).sum =
            ((stops p).map a.visitDual).sum := by
          congr 1
          refine List.map_congr_left ?_
          intro v hv
          have hvc : v ∈ cfg.M.G.customers := by
            obtain ⟨mid, rfl, hmid, _⟩ := hps.1
            rw [stops_routeOf (route_customers hps.1)] at hv
            exact route_customers hps.1 v hv
          rw [Master.dget_visit a hvc]
          rfl
        have hle := hcp c (by rw [hinv]; exact hc) p hpc.1 hdraw
        rw [henc.cost, hpc.1] at hle
        rw [hrc, hsum]
        linarith
  · simp [hopt] at hsm

theorem lower_bound_upTo {st st' : SolveState} {m : Heur} {fuel : Nat} {F : List Node → Prop}
    {tol : List Node → ℚ} (hnum : Numbered st.cols)
    (hmc : st.mcols = st.cols) (hmore : st.more = true) (hpool : ∀ c ∈ st.cols, PathColumn cfg.M.G c)
    (hp : cfg.pricing = .fixed m) (hG : WellFormed cfg.M.G) (hcspy : cfg.cspy = true) (hK : cfg.K = 1)
    (hg : usesGreedy cfg = false) (hspan : cfg.M.globalSpan = false) (hper : cfg.M.periodic = false)
    (hF : ∀ (q : Cspy) res r, q.G = cfg.M.G → q.vehicleType = 0 → q.caps = cfg.caps → q.numStops = cfg.numStops →
      q.duration = cfg.duration → q.timeWindows = cfg.timeWindows → q.pickupDelivery = cfg.pickupDelivery →
      q.distributionCollection = cfg.distributionCollection → q.formulate = .ok res → F r →
      IsSimpleRoute q.G r ∧ WithinLimits q res r)
    (hsound : ∀ t q, CspySound q (env.cspy t q)) (hfinds : ∀ t q, WellFormed q.G → CspyFindsUpTo tol q (env.cspy t q))
    (hpaths : ∀ t, PathsOk (env.paths t))
    (hduals : ∀ n stm, Trace cfg env false st n stm → (env.master stm.tick (cfg.M.lp stm.mcols true)).optimal = true →
      DualsOk cfg.M stm.mcols (env.master stm.tick (cfg.M.lp stm.mcols true)) ∧
      ColumnsPriced cfg.M stm.mcols (env.master stm.tick (cfg.M.lp stm.mcols true)))
    (h : columnGeneration cfg env false fuel st = .ok (some st'))
    (hlim : limitReached cfg st' = false) (htime : env.timeUp st'.tick = false) :
    ∃ bound, st'.bounds.getLast? = some bound ∧
      ∀ (P : Plan) (dropped : List Node) (ε : ℚ), ValidPlan cfg.M.G cfg.M.numVehicles cfg.M.useAllVehicles dropped P →
        (∀ v ∈ dropped, v ∈ cfg.M.drops) → (∀ e ∈ P, e.1 = 0 ∧ F e.2) → (∀ e ∈ P, tol e.2 ≤ ε) →
        bound ≤ planCost cfg.M.G P + cfg.M.dropPenalty * (cfg.M.G.customers.filter (fun v => v ∈ dropped)).length +
          ε * P.length := by
  have hfl : ∀ stm a, ((cfg.M.duals stm a).fleet.getD []).getD 0 0 =
      if 0 < cfg.M.numVehicles.length then a.fleetDual 0 else 0 := by
    intro stm a
    unfold Master.duals
    simp only [hper, and_true]
    by_cases h0 : cfg.M.numVehicles = []
    · simp [h0]
    · have hpos : 0 < cfg.M.numVehicles.length := List.length_pos_iff.2 h0
      rw [if_pos h0, if_pos hpos]
      simp [List.getD_eq_getElem?_getD, hpos]
  obtain ⟨n, stm, htr, hopt, hlast, hno⟩ := nothing_left_upTo (tol := tol) hnum hmc hmore hpool hp hG hcspy hK hg hspan hF hsound
    hfinds hpaths (fun n stm htr hopt c hc p h0 hdraw => by
      have := (hduals n stm htr hopt).2 c hc p hdraw
      rw [h0] at this
      rw [hfl]
      exact this) h hlim htime
  refine ⟨_, hlast, ?_⟩
  intro P dropped ε hP hdr hPF hε
  obtain ⟨hdu, _⟩ := hduals n stm htr hopt
  generalize env.master stm.tick (cfg.M.lp stm.mcols true) = a at hdu hno
  refine hdu.value.trans ?_
  refine Master.C54_weak_duality hG hper a hP hdu.fleet (fun v _ hv => hdu.drop v (hdr v hv))
    (w := fun k => match reducedCosts cfg.M.G (cfg.M.duals stm.cols a) k none with | .ok w => w | .error _ => fun _ _ => 0)
    (cols := stm.cols) ?_ ?_
  · intro e he
    obtain ⟨w, hw, _⟩ := hno e.2 (hPF e he).2
    rw [(hPF e he).1]
    simp only [hw]
  · intro e he
    obtain ⟨w, hw, hle⟩ := hno e.2 (hPF e he).2
    rw [(hPF e he).1]
    simp only [hw]
    exact (neg_le_neg (hε e he)).trans hle

/-- **C73 (partial)**, column generation with cspy, one vehicle type, a fixed strategy and no greedy pricing: if it ends before a
limit is reached, the last value of `lower_bound` bounds the cost of every plan whose routes have a property `F` that
keeps them within the limits of cspy, up to 1/1000 per vehicle.  What the LP solver is trusted for: feasible dual values
that prove the value of the master problem (`DualsOk`) and, among them, none for the bounds `y ≤ 1`
(`ColumnsPriced`).  What is missing: dual values for these bounds (`C73_bound_counterexample`), several vehicle types
(`C73_mixed_fleet_counterexample`), greedy pricing (`C73_greedy_counterexample`), for which it is false; the global
span; periodic problems are in `C73_horizon_partial`. -/
theorem C73_lower_bound_partial {st st' : SolveState} {m : Heur} {fuel : Nat} {F : List Node → Prop} (hnum : Numbered st.cols)
    (hmc : st.mcols = st.cols) (hmore : st.more = true) (hpool : ∀ c ∈ st.cols, PathColumn cfg.M.G c)
    (hp : cfg.pricing = .fixed m) (hG : WellFormed cfg.M.G) (hcspy : cfg.cspy = true) (hK : cfg.K = 1)
    (hg : usesGreedy cfg = false) (hspan : cfg.M.globalSpan = false) (hper : cfg.M.periodic = false)
    (hF : ∀ (q : Cspy) res r, q.G = cfg.M.G → q.vehicleType = 0 → q.caps = cfg.caps → q.numStops = cfg.numStops →
      q.duration = cfg.duration → q.timeWindows = cfg.timeWindows → q.pickupDelivery = cfg.pickupDelivery →
      q.distributionCollection = cfg.distributionCollection → q.formulate = .ok res → F r →
      IsSimpleRoute q.G r ∧ WithinLimits q res r)
    (hsound : ∀ t q, CspySound q (env.cspy t q)) (hfinds : ∀ t q, CspyFinds q (env.cspy t q))
    (hpaths : ∀ t, PathsOk (env.paths t))
    (hduals : ∀ n stm, Trace cfg env false st n stm → (env.master stm.tick (cfg.M.lp stm.mcols true)).optimal = true →
      DualsOk cfg.M stm.mcols (env.master stm.tick (cfg.M.lp stm.mcols true)) ∧
      ColumnsPriced cfg.M stm.mcols (env.master stm.tick (cfg.M.lp stm.mcols true)))
    (h : columnGeneration cfg env false fuel st = .ok (some st'))
    (hlim : limitReached cfg st' = false) (htime : env.timeUp st'.tick = false) :
    ∃ bound, st'.bounds.getLast? = some bound ∧
      ∀ (P : Plan) (dropped : List Node), ValidPlan cfg.M.G cfg.M.numVehicles cfg.M.useAllVehicles dropped P →
        (∀ v ∈ dropped, v ∈ cfg.M.drops) → (∀ e ∈ P, e.1 = 0 ∧ F e.2) →
        bound ≤ planCost cfg.M.G P + cfg.M.dropPenalty * (cfg.M.G.customers.filter (fun v => v ∈ dropped)).length +
          1 / 1000 * P.length := by
  obtain ⟨bound, hb, hbound⟩ := lower_bound_upTo (tol := fun _ => 1 / 1000) hnum hmc hmore hpool hp hG hcspy hK hg hspan hper hF
    hsound (fun t q _ => hfinds t q) hpaths hduals h hlim htime
  exact ⟨bound, hb, fun P dropped h1 h2 h3 => hbound P dropped _ h1 h2 h3 (fun _ _ => le_refl _)⟩

end Solve

end Vrpy
