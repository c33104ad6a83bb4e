import Verif.Proofs.Schedule

/-!
# C30, C31: schedules of periodic problems are valid and balanced
-/

namespace Vrpy

open Spec

namespace Schedule

variable {s : Schedule} {p : SVar → ℚ}

/-- The validity of a schedule of the routes of `s`. -/
abbrev Valid (s : Schedule) (S : Dict Nat (List Nat)) : Prop :=
  ValidSchedule s.G.demand s.timeSpan s.routes s.types s.numVehicles S

theorem visitsOf_sublist {routes : Dict Nat (List Node)} (hk : (routes.map Prod.fst).Nodup) {l : List (Nat × List Node)}
    (hl : ∀ r ∈ l, r ∈ routes) : visitsOf routes (l.map Prod.fst) = l.flatMap Prod.snd := by
  induction l with
  | nil => rfl
  | cons r l ih =>
    have := ih (fun a ha => hl a (List.mem_cons_of_mem _ ha))
    simp only [visitsOf, List.map_cons, List.flatMap_cons] at this ⊢
    rw [this, dget_of_mem hk (show (r.1, r.2) ∈ routes from hl r List.mem_cons_self)]
    rfl

theorem count_flatMap_le {l : List (Nat × List Node)} {v : Node} (h : ∀ r ∈ l, r.2.count v ≤ 1) :
    (l.flatMap Prod.snd).count v = (l.filter (fun r => v ∈ r.2)).length := by
  induction l with
  | nil => rfl
  | cons r l ih =>
    rw [List.flatMap_cons, List.count_append, ih (fun a ha => h a (List.mem_cons_of_mem _ ha)), List.filter_cons]
    by_cases hm : v ∈ r.2
    · have h1 := h r List.mem_cons_self
      have h2 := List.count_pos_iff.2 hm
      simp only [hm, decide_true, if_true, List.length_cons]
      omega
    · rw [List.count_eq_zero_of_not_mem hm]
      simp [hm]

/-- The days of a feasible point: every route is driven on one day of the horizon, no customer with demand that no route visits twice
is visited twice on a day, and no day uses more vehicles than there are. -/
theorem days_of_feasible (hk : (s.routes.map Prod.fst).Nodup) (hf : s.lp.Feasible p) :
    ((s.routesPerDay true p).map Prod.fst).Nodup ∧ (∀ e ∈ s.routesPerDay true p, e.1 < s.timeSpan) ∧
      ((s.routesPerDay true p).flatMap Prod.snd).Perm (s.routes.map Prod.fst) ∧
      (∀ e ∈ s.routesPerDay true p, ∀ v ∈ s.G.nodes, 0 < s.G.demand v → (∀ r ∈ s.routes, r.2.count v ≤ 1) →
        (visitsOf s.routes e.2).count v ≤ 1) ∧
      (∀ e ∈ s.routesPerDay true p, ∀ k n, s.numVehicles[k]? = some n → typeCount s.types k e.2 ≤ n) := by
  obtain ⟨hk1, hk2⟩ := routesPerDay_keys s p
  have hsub : ∀ t, ∀ r ∈ s.routes.filter (fun r => p (.y r.1 t) > 9 / 10), r ∈ s.routes :=
    fun t r hr => (List.mem_filter.1 hr).1
  have uniq : ∀ r ∈ s.routes, ∀ t t', t < s.timeSpan → t' < s.timeSpan → p (.y r.1 t) > 9 / 10 → p (.y r.1 t') > 9 / 10 →
      t = t' := by
    intro r hr t t' ht ht' h h'
    obtain ⟨a, ha⟩ := List.length_eq_one_iff.1 (one_day hf hr)
    have h1 : t ∈ [a] := ha ▸ List.mem_filter.2 ⟨List.mem_range.2 ht, by simpa using h⟩
    have h2 : t' ∈ [a] := ha ▸ List.mem_filter.2 ⟨List.mem_range.2 ht', by simpa using h'⟩
    rw [List.mem_singleton] at h1 h2
    rw [h1, h2]
  have mem_entry : ∀ e ∈ s.routesPerDay true p, ∀ i ∈ e.2, ∃ r ∈ s.routes, r.1 = i ∧ p (.y i e.1) > 9 / 10 := by
    intro e he i hi
    rw [(routesPerDay_entry he).2] at hi
    obtain ⟨r, hr, rfl⟩ := List.mem_map.1 hi
    exact ⟨r, hsub _ r hr, rfl, by simpa using (List.mem_filter.1 hr).2⟩
  refine ⟨hk1, fun e he => (routesPerDay_entry he).1, ?_, ?_, ?_⟩
  · refine (List.perm_ext_iff_of_nodup ?_ hk).2 ?_
    · rw [List.nodup_flatMap]
      refine ⟨fun e he => ?_, ?_⟩
      · rw [(routesPerDay_entry he).2]
        exact hk.sublist (List.filter_sublist.map _)
      · have hp : (s.routesPerDay true p).Pairwise (fun e e' => e.1 ≠ e'.1) := List.pairwise_map.1 hk1
        refine List.Pairwise.imp_of_mem ?_ hp
        intro e e' he he' hne i hi hi'
        obtain ⟨r, hr, rfl, h1⟩ := mem_entry e he i hi
        obtain ⟨r', hr', hrr, h2⟩ := mem_entry e' he' _ hi'
        exact hne (uniq r hr _ _ (routesPerDay_entry he).1 (routesPerDay_entry he').1 h1 h2)
    · intro i
      rw [List.mem_flatMap, List.mem_map]
      constructor
      · rintro ⟨e, he, hi⟩
        obtain ⟨r, hr, rfl, _⟩ := mem_entry e he i hi
        exact ⟨r, hr, rfl⟩
      · rintro ⟨r, hr, rfl⟩
        obtain ⟨t, ht⟩ := List.length_eq_one_iff.1 (one_day hf hr)
        have hm : t ∈ (List.range s.timeSpan).filter (fun t => p (.y r.1 t) > 9 / 10) := by rw [ht]; simp
        obtain ⟨h1, h2⟩ := List.mem_filter.1 hm
        have hd := routesPerDay_day s p (List.mem_range.1 h1)
        have hmem : r.1 ∈ (dget (s.routesPerDay true p) t).getD [] := by
          rw [hd]; exact List.mem_map_of_mem (List.mem_filter.2 ⟨hr, h2⟩)
        cases hg : dget (s.routesPerDay true p) t with
        | none => rw [hg] at hmem; simp at hmem
        | some l => rw [hg] at hmem; exact ⟨(t, l), mem_of_dget hg, hmem⟩
  · intro e he v hn hv hel
    obtain ⟨ht, h2⟩ := routesPerDay_entry he
    rw [h2, visitsOf_sublist hk (hsub e.1), count_flatMap_le (fun r hr => hel r (hsub _ r hr))]
    exact visit_le hf ht hn hv
  · intro e he k n hkn
    obtain ⟨ht, h2⟩ := routesPerDay_entry he
    rw [h2, typeCount, List.filter_map, List.length_map]
    exact fleet_le hf ht hkn

/-- **C30.**  Whatever feasible point the solver returns, the schedule read from it is valid; if the solver does not
report an optimum, the schedule is empty. -/
theorem C30_schedule_valid (hk : (s.routes.map Prod.fst).Nodup) (hin : ∀ r ∈ s.routes, ∀ v ∈ r.2, 0 < s.G.demand v → v ∈ s.G.nodes)
    (hel : ∀ r ∈ s.routes, ∀ v, 0 < s.G.demand v → r.2.count v ≤ 1) (optimal : Bool) (p : SVar → ℚ)
    (hf : optimal = true → s.lp.Feasible p) :
    (optimal = true → s.Valid (s.routesPerDay optimal p)) ∧ (optimal = false → s.routesPerDay optimal p = []) := by
  refine ⟨?_, fun h => by simp [routesPerDay, h]⟩
  rintro rfl
  replace hf := hf rfl
  obtain ⟨h1, h2, h3, h4, h5⟩ := days_of_feasible hk hf
  refine ⟨h1, h2, h3, ?_, h5⟩
  intro e he v hv
  by_cases hn : v ∈ s.G.nodes
  · exact h4 e he v hn hv (fun r hr => hel r hr v hv)
  · have : v ∉ visitsOf s.routes e.2 := by
      intro hm
      obtain ⟨i, _, hi⟩ := List.mem_flatMap.1 hm
      cases hg : dget s.routes i with
      | none => rw [hg] at hi; cases hi
      | some l =>
        rw [hg] at hi
        exact hn (hin _ (mem_of_dget hg) v hi hv)
    rw [List.count_eq_zero_of_not_mem this]
    exact Nat.zero_le _

/-! ### The point of a schedule -/

/-- The point that a schedule with extreme loads `hi`, `lo` stands for. -/
def pointOf (S : Dict Nat (List Nat)) (hi lo : Nat) : SVar → ℚ
  | .y r t => if r ∈ (dget S t).getD [] then 1 else 0
  | .loadMax => hi
  | .loadMin => lo

theorem sum_indicator {α : Type} (l : List α) (P : α → Prop) [DecidablePred P] :
    (l.map (fun a => if P a then (1 : ℚ) else 0)).sum = ((l.filter (fun a => P a)).length : ℚ) := by
  induction l with
  | nil => simp
  | cons a l ih =>
    rw [List.map_cons, List.sum_cons, ih, List.filter_cons]
    by_cases h : P a
    · simp [h]; ring
    · simp [h]

variable {S : Dict Nat (List Nat)}

theorem day_mem (hS : s.Valid S) {t i : Nat} (h : i ∈ (dget S t).getD []) : ∃ l, (t, l) ∈ S ∧ i ∈ l ∧ dget S t = some l := by
  cases hg : dget S t with
  | none => rw [hg] at h; simp at h
  | some l => rw [hg] at h; exact ⟨l, mem_of_dget hg, h, rfl⟩

theorem day_perm (hk : (s.routes.map Prod.fst).Nodup) (hS : s.Valid S) (t : Nat) (P : Nat × List Node → Prop) [DecidablePred P]
    (Q : Nat → Prop) [DecidablePred Q] (hPQ : ∀ r ∈ s.routes, P r ↔ Q r.1) :
    ((s.routes.filter (fun r => P r)).filter (fun r => r.1 ∈ (dget S t).getD [])).length =
      (((dget S t).getD []).filter (fun i => Q i)).length := by
  have hnd : (S.flatMap Prod.snd).Nodup := hS.each.nodup_iff.2 hk
  rw [List.nodup_flatMap] at hnd
  have hday : ((dget S t).getD []).Nodup := by
    cases hg : dget S t with
    | none => simp
    | some l => exact hnd.1 _ (mem_of_dget hg)
  rw [← List.length_map (f := Prod.fst)]
  refine List.Perm.length_eq ((List.perm_ext_iff_of_nodup ?_ (hday.filter _)).2 ?_)
  · exact hk.sublist ((List.filter_sublist.trans List.filter_sublist).map _)
  · intro i
    rw [List.filter_filter, List.mem_map]
    simp only [List.mem_filter, Bool.and_eq_true, decide_eq_true_eq]
    constructor
    · rintro ⟨r, ⟨hr, hd, hP⟩, rfl⟩
      exact ⟨hd, (hPQ r hr).1 hP⟩
    · rintro ⟨hd, hQ⟩
      obtain ⟨l, hl, hil, _⟩ := day_mem hS hd
      have : i ∈ s.routes.map Prod.fst := hS.each.mem_iff.1 (List.mem_flatMap.2 ⟨_, hl, hil⟩)
      obtain ⟨r, hr, rfl⟩ := List.mem_map.1 this
      exact ⟨r, ⟨hr, hd, (hPQ r hr).2 hQ⟩, rfl⟩

theorem one_day_of_valid (hk : (s.routes.map Prod.fst).Nodup) (hS : s.Valid S) {r : Nat × List Node} (hr : r ∈ s.routes) :
    ((List.range s.timeSpan).filter (fun t => r.1 ∈ (dget S t).getD [])).length = 1 := by
  have hnd : (S.flatMap Prod.snd).Nodup := hS.each.nodup_iff.2 hk
  have hm : r.1 ∈ S.flatMap Prod.snd := hS.each.mem_iff.2 (List.mem_map_of_mem hr)
  obtain ⟨e, he, hre⟩ := List.mem_flatMap.1 hm
  rw [List.length_eq_one_iff]
  refine ⟨e.1, ?_⟩
  refine List.perm_singleton.1 ((List.perm_ext_iff_of_nodup (List.nodup_range.filter _) (by simp)).2 ?_)
  intro t
  simp only [List.mem_filter, List.mem_range, decide_eq_true_eq, List.mem_singleton]
  constructor
  · rintro ⟨ht, hd⟩
    obtain ⟨l, hl, hil, _⟩ := day_mem hS hd
    by_contra hne
    rw [List.nodup_flatMap] at hnd
    haveI : Std.Symm (Function.onFun List.Disjoint (Prod.snd (α := Nat) (β := List Nat))) := ⟨fun a b h => h.symm⟩
    have := hnd.2.forall hl he (by rintro rfl; exact hne rfl)
    exact this hil hre
  · rintro rfl
    refine ⟨hS.horizon e he, ?_⟩
    rw [dget_of_mem hS.days (show (e.1, e.2) ∈ S from he)]
    exact hre

theorem length_filter_le_count {routes : Dict Nat (List Node)} (v : Node) (rs : List Nat) :
    (rs.filter (fun i => ∃ L, dget routes i = some L ∧ v ∈ L)).length ≤ (visitsOf routes rs).count v := by
  induction rs with
  | nil => simp [visitsOf]
  | cons i rs ih =>
    simp only [visitsOf, List.flatMap_cons, List.count_append, List.filter_cons] at ih ⊢
    by_cases h : ∃ L, dget routes i = some L ∧ v ∈ L
    · simp only [h, decide_true, if_true, List.length_cons]
      obtain ⟨L, hL, hv⟩ := h
      have := List.count_pos_iff.2 hv
      rw [hL, Option.getD_some]
      omega
    · simp only [h, decide_false, Bool.false_eq_true, if_false]
      omega

/-- Every valid schedule is a feasible point of the scheduling problem. -/
theorem feasible_of_valid (hk : (s.routes.map Prod.fst).Nodup) (hS : s.Valid S) {hi lo : Nat}
    (hhi : ∀ t < s.timeSpan, Spec.dayLoad S t ≤ hi) (hlo : ∀ t < s.timeSpan, lo ≤ Spec.dayLoad S t) :
    s.lp.Feasible (pointOf S hi lo) := by
  have hload : ∀ t, (s.routes.map (fun r => pointOf S hi lo (.y r.1 t))).sum = (Spec.dayLoad S t : ℚ) := by
    intro t
    simp only [pointOf]
    rw [sum_indicator]
    have := day_perm hk hS t (fun _ => True) (fun _ => True) (fun _ _ => Iff.rfl)
    simp only [decide_true, List.filter_true] at this
    rw [this, Spec.dayLoad]
  constructor
  · intro d hd
    simp only [lp, List.mem_append, List.mem_flatMap, List.mem_map, List.mem_cons, List.not_mem_nil, or_false] at hd
    rcases hd with ⟨r, _, t, _, rfl⟩ | rfl | rfl
    · refine ⟨?_, ?_, ?_⟩
      · rintro a h; cases h; simp only [pointOf]; split <;> norm_num
      · rintro a h; cases h; simp only [pointOf]; split <;> norm_num
      · intro _; simp only [pointOf]; split
        · exact ⟨1, by norm_num⟩
        · exact ⟨0, by norm_num⟩
    · refine ⟨?_, ?_, ?_⟩
      · rintro a h; cases h; simp [pointOf]
      · rintro a h; cases h
      · intro h; cases h
    · refine ⟨?_, ?_, ?_⟩
      · rintro a h; cases h; simp [pointOf]
      · rintro a h; cases h
      · intro h; cases h
  · intro c hc
    simp only [lp, loadConstrs, List.mem_append, List.mem_flatMap, List.mem_map, List.mem_range, List.mem_flatten,
      List.mem_mapIdx] at hc
    rcases hc with (((⟨t, ht, rfl⟩ | ⟨t, ht, rfl⟩) | ⟨r, hr, rfl⟩) | ⟨t, ht, v, hv, rfl⟩) | ⟨cs, ⟨k, hkl, rfl⟩, hc⟩
    · simp only [Constr.Holds, eval_append, Schedule.dayLoad, eval_lpSum, List.map_map, eval_cons, eval_nil,
        Function.comp_def, hload]
      have : (Spec.dayLoad S t : ℚ) ≤ hi := by exact_mod_cast hhi t ht
      simp only [pointOf]; linarith
    · simp only [Constr.Holds, eval_append, Schedule.dayLoad, eval_lpSum, List.map_map, eval_cons, eval_nil,
        Function.comp_def, hload]
      have : (lo : ℚ) ≤ Spec.dayLoad S t := by exact_mod_cast hlo t ht
      simp only [pointOf]; linarith
    · simp only [Constr.Holds, routeConstr, eval_lpSum, List.map_map, Function.comp_def, pointOf]
      rw [sum_indicator, one_day_of_valid hk hS hr]
      norm_num
    · simp only [Constr.Holds, visitConstr, eval_lpSum, List.map_map, Function.comp_def, pointOf]
      rw [sum_indicator, day_perm hk hS t (fun r => v ∈ r.2) (fun i => ∃ L, dget s.routes i = some L ∧ v ∈ L) (by
        intro r hr
        rw [dget_of_mem hk (show (r.1, r.2) ∈ s.routes from hr)]
        simp)]
      have hd : 0 < s.G.demand v := by simpa using (List.mem_filter.1 hv).2
      have : (((dget S t).getD []).filter (fun i => ∃ L, dget s.routes i = some L ∧ v ∈ L)).length ≤ 1 := by
        refine (length_filter_le_count v _).trans ?_
        cases hg : dget S t with
        | none => simp [visitsOf]
        | some l => exact hS.once _ (mem_of_dget hg) v hd
      exact_mod_cast this
    · simp only [List.mem_map, List.mem_range] at hc
      obtain ⟨t, ht, rfl⟩ := hc
      simp only [Constr.Holds, fleetConstr, eval_lpSum, List.map_map, Function.comp_def, pointOf]
      rw [sum_indicator, day_perm hk hS t (fun r => dget s.types r.1 = some k) (fun i => dget s.types i = some k)
        (fun _ _ => Iff.rfl)]
      have : (((dget S t).getD []).filter (fun i => dget s.types i = some k)).length ≤ s.numVehicles[k] := by
        cases hg : dget S t with
        | none => simp
        | some l => exact hS.fleet _ (mem_of_dget hg) k _ (List.getElem?_eq_getElem hkl)
      exact_mod_cast this

/-- **C30.**  The scheduling problem has a feasible point exactly if there is a valid schedule, so an empty answer of a
solver that decides feasibility means that there is none. -/
theorem C30_feasible_iff (hk : (s.routes.map Prod.fst).Nodup) (hin : ∀ r ∈ s.routes, ∀ v ∈ r.2, 0 < s.G.demand v → v ∈ s.G.nodes)
    (hel : ∀ r ∈ s.routes, ∀ v, 0 < s.G.demand v → r.2.count v ≤ 1) :
    (∃ p, s.lp.Feasible p) ↔ ∃ S, s.Valid S := by
  constructor
  · rintro ⟨p, hp⟩
    exact ⟨_, (C30_schedule_valid hk hin hel true p (fun _ => hp)).1 rfl⟩
  · rintro ⟨S, hS⟩
    refine ⟨pointOf S (s.routes.length) 0, feasible_of_valid hk hS ?_ (fun _ _ => Nat.zero_le _)⟩
    intro t _
    have := day_perm hk hS t (fun _ => True) (fun _ => True) (fun _ _ => Iff.rfl)
    simp only [decide_true, List.filter_true] at this
    rw [Spec.dayLoad, ← this]
    exact List.length_filter_le _ _

/-- There is a busiest and a least busy day. -/
theorem C31_spread_exists {span : Nat} (h : 0 < span) (S : Dict Nat (List Nat)) : ∃ d, IsSpread span S d := by
  obtain ⟨hi, h1, h2⟩ := Finset.exists_max_image (Finset.range span) (Spec.dayLoad S) ⟨0, Finset.mem_range.2 h⟩
  obtain ⟨lo, h3, h4⟩ := Finset.exists_min_image (Finset.range span) (Spec.dayLoad S) ⟨0, Finset.mem_range.2 h⟩
  exact ⟨_, hi, lo, Finset.mem_range.1 h1, Finset.mem_range.1 h3, fun t ht => h2 t (Finset.mem_range.2 ht),
    fun t ht => h4 t (Finset.mem_range.2 ht), rfl⟩

/-- **C31.**  The schedule of an optimal point has the least difference between the busiest and the least busy day among
all valid schedules. -/
theorem C31_balanced (hk : (s.routes.map Prod.fst).Nodup) (ho : s.lp.Optimal p) {S' : Dict Nat (List Nat)} (hS' : s.Valid S')
    {d d' : Int} (hd : IsSpread s.timeSpan (s.routesPerDay true p) d) (hd' : IsSpread s.timeSpan S' d') : d ≤ d' := by
  obtain ⟨hi, lo, hhi, hlo, -, -, rfl⟩ := hd
  obtain ⟨hi', lo', -, -, hmax', hmin', rfl⟩ := hd'
  have hb := ho.best _ (feasible_of_valid hk hS' hmax' hmin')
  simp only [lp, eval_cons, eval_nil, pointOf] at hb
  have h1 := (load_bounds ho.feasible hhi).1
  have h2 := (load_bounds ho.feasible hlo).2
  have : ((Spec.dayLoad (s.routesPerDay true p) hi : ℚ) - Spec.dayLoad (s.routesPerDay true p) lo) ≤
      (Spec.dayLoad S' hi' : ℚ) - Spec.dayLoad S' lo' := by linarith
  exact_mod_cast this

/-- **C30.**  `_formulate` raises `KeyError` exactly if there is a fleet and a route has no vehicle type. -/
theorem C30_formulate : s.formulate = .ok s.lp ↔
    (s.numVehicles = [] ∨ s.timeSpan = 0 ∨ ∀ r ∈ s.routes, ∃ k, dget s.types r.1 = some k) := by
  unfold formulate
  split
  · rename_i h
    obtain ⟨h1, h2, r, hr, hn⟩ := h
    constructor
    · intro h; cases h
    · rintro (h | h | h)
      · exact absurd h h1
      · exact absurd h h2
      · obtain ⟨k, hk⟩ := h r hr
        rw [hn] at hk; cases hk
  · rename_i h
    refine ⟨fun _ => ?_, fun _ => rfl⟩
    by_contra hc
    push Not at hc
    obtain ⟨h1, h2, r, hr, hn⟩ := hc
    exact h ⟨h1, h2, r, hr, Option.eq_none_iff_forall_not_mem.2 hn⟩

/-! ### A concrete case -/

/-- Three customers, two days, four routes and two vehicles; customer 1 is visited twice. -/
def exWeek : Schedule where
  G := { nodes := [.source, .cust 1, .cust 2, .cust 3, .sink], succ := fun _ => [], cost := fun _ _ => [], time := fun _ _ => 0,
         demand := fun v => match v with | .cust _ => 1 | _ => 0 }
  timeSpan := 2
  routes := [(1, [.source, .cust 1, .sink]), (2, [.source, .cust 2, .sink]), (3, [.source, .cust 1, .cust 3, .sink])]
  types := [(1, 0), (2, 0), (3, 0)]
  numVehicles := [2]

/-- The solver's answer: routes 1 and 2 on day 0, route 3 on day 1. -/
def exWeekPoint : SVar → ℚ
  | .y 1 0 => 1
  | .y 2 0 => 1
  | .y 3 1 => 1
  | .y _ _ => 0
  | .loadMax => 2
  | .loadMin => 1

theorem exWeekPoint_feasible : exWeek.lp.Feasible exWeekPoint := feasible_of _ _ (by decide +kernel)

theorem exWeekPoint_optimal : exWeek.lp.Optimal exWeekPoint := by
  refine ⟨exWeekPoint_feasible, fun x hx => ?_⟩
  have hy : ∀ i ∈ [1, 2, 3], x (.y i 0) + x (.y i 1) = 1 ∧ (x (.y i 0) = 0 ∨ x (.y i 0) = 1) := by
    intro i hi
    have hm : ∃ L, (i, L) ∈ exWeek.routes := by
      simp only [List.mem_cons, List.not_mem_nil, or_false] at hi
      rcases hi with rfl | rfl | rfl <;> simp [exWeek]
    obtain ⟨L, hL⟩ := hm
    have h := hx.constrs (exWeek.routeConstr (i, L)) (by
      simp only [lp, List.mem_append, List.mem_map]
      exact Or.inl (Or.inl (Or.inr ⟨_, hL, rfl⟩)))
    refine ⟨?_, y_zero_or_one hx hL (by decide)⟩
    simpa [Constr.Holds, routeConstr, exWeek, List.range_succ] using h
  have hl : ∀ t < 2, x (.y 1 t) + x (.y 2 t) + x (.y 3 t) ≤ x .loadMax ∧ x .loadMin ≤ x (.y 1 t) + x (.y 2 t) + x (.y 3 t) := by
    intro t ht
    have h1 := hx.constrs ⟨exWeek.dayLoad t ++ [(-1, .loadMax)], .le, 0⟩ (by
      simp only [lp, loadConstrs, List.mem_append, List.mem_map]
      exact Or.inl (Or.inl (Or.inl (Or.inl ⟨t, List.mem_range.2 ht, rfl⟩))))
    have h2 := hx.constrs ⟨exWeek.dayLoad t ++ [(-1, .loadMin)], .ge, 0⟩ (by
      simp only [lp, loadConstrs, List.mem_append, List.mem_map]
      exact Or.inl (Or.inl (Or.inl (Or.inr ⟨t, List.mem_range.2 ht, rfl⟩))))
    simp only [Constr.Holds, eval_append, Schedule.dayLoad, eval_lpSum, List.map_map, eval_cons, eval_nil,
      Function.comp_def, exWeek, List.map_cons, List.map_nil, List.sum_cons, List.sum_nil] at h1 h2
    constructor <;> linarith
  obtain ⟨a1, b1⟩ := hy 1 (by simp)
  obtain ⟨a2, b2⟩ := hy 2 (by simp)
  obtain ⟨a3, b3⟩ := hy 3 (by simp)
  obtain ⟨c0, d0⟩ := hl 0 (by decide)
  obtain ⟨c1, d1⟩ := hl 1 (by decide)
  have e : exWeek.lp.obj.eval exWeekPoint = 1 := by decide +kernel
  have e' : exWeek.lp.obj.eval x = x .loadMax - x .loadMin := by
    simp only [lp, eval_cons, eval_nil]; ring
  rw [e, e']
  rcases b1 with b1 | b1 <;> rcases b2 with b2 | b2 <;> rcases b3 with b3 | b3 <;> linarith

theorem exWeek_elementary : ∀ r ∈ exWeek.routes, ∀ v, 0 < exWeek.G.demand v → r.2.count v ≤ 1 := by
  have h : ∀ r ∈ exWeek.routes, r.2.Nodup := by decide
  exact fun r hr v _ => List.nodup_iff_count_le_one.1 (h r hr) v

example : exWeek.Valid (exWeek.routesPerDay true exWeekPoint) :=
  (C30_schedule_valid (by decide) (by decide) exWeek_elementary true _ (fun _ => exWeekPoint_feasible)).1 rfl

example (S' : Dict Nat (List Nat)) (h : exWeek.Valid S') (d d' : Int)
    (hd : IsSpread 2 (exWeek.routesPerDay true exWeekPoint) d) (hd' : IsSpread 2 S' d') : d ≤ d' :=
  C31_balanced (by decide) exWeekPoint_optimal h hd hd'

example : exWeek.routesPerDay true exWeekPoint = [(0, [1, 2]), (1, [3])] := by decide +kernel

end Schedule

end Vrpy
