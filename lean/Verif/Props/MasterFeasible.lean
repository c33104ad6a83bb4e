import Verif.Props.MasterCases
import Verif.Props.InitialSolution

/-!
# C57: the master problem has feasible points
-/

namespace Vrpy

open Spec

namespace Master

variable {M : Master} {cols : List Column}

private theorem list_sum_nonneg {l : List ℚ} (h : ∀ x ∈ l, 0 ≤ x) : 0 ≤ l.sum := List.sum_nonneg h

private theorem single_le_sum {α : Type} {l : List α} {f : α → ℚ} (h : ∀ x ∈ l, 0 ≤ f x) {a : α} (ha : a ∈ l) :
    f a ≤ (l.map f).sum := by
  induction l with
  | nil => simp at ha
  | cons x l ih =>
    simp only [List.map_cons, List.sum_cons]
    have h0 : 0 ≤ (l.map f).sum := list_sum_nonneg (by
      intro y hy; obtain ⟨z, hz, rfl⟩ := List.mem_map.1 hy; exact h z (List.mem_cons_of_mem _ hz))
    rcases List.mem_cons.1 ha with rfl | ha
    · linarith
    · have := ih (fun y hy => h y (List.mem_cons_of_mem _ hy)) ha
      have := h x List.mem_cons_self
      linarith

private theorem filter_sum_le {l : List Column} (q : Column → Bool) {f : Column → ℚ} (h : ∀ c ∈ l, 0 ≤ f c) :
    ((l.filter q).map f).sum ≤ (l.map f).sum := by
  induction l with
  | nil => simp
  | cons c l ih =>
    have ih' := ih (fun x hx => h x (List.mem_cons_of_mem _ hx))
    have hc := h c List.mem_cons_self
    rw [List.filter_cons]
    split
    · simp only [List.map_cons, List.sum_cons]; linarith
    · simp only [List.map_cons, List.sum_cons]; linarith

/-- The value of a covering constraint. -/
private theorem visit_eval (p : MVar → ℚ) (relax : Bool) (v : Node) :
    (M.visitConstr cols relax v).lhs.eval p =
      (cols.map (fun c => ((c.visited M.globalSpan).count v : ℚ) * p (.y c.name))).sum +
        (if v ∈ M.drops then p (.drop v) else 0) + (if v ∈ M.dummies then p (.dummy v) else 0) := by
  simp only [visitConstr, eval_append]
  congr 1
  · congr 1
    · simp [LinExpr.eval, Function.comp_def]
    · split <;> simp [LinExpr.eval]
  · split <;> simp [LinExpr.eval]

private theorem fleet_eval (p : MVar → ℚ) (k n : Nat) :
    (M.fleetConstr cols k n).lhs.eval p =
      ((cols.filter (fun c => c.vehicleType = k)).map (fun c => p (.y c.name))).sum - p (.bound k) := by
  simp only [fleetConstr, eval_append]
  simp [LinExpr.eval, Function.comp_def]
  ring

private theorem span_eval (p : MVar → ℚ) (i : Nat) :
    (spanConstr cols i).lhs.eval p =
      ((cols.filter (fun c => c.name = .num i)).map (fun c => c.cost * p (.y c.name))).sum -
        (if i < 75 then p .makespan else 0) := by
  simp only [spanConstr, eval_append]
  split <;> simp [LinExpr.eval, Function.comp_def] <;> ring

/-- **C57**, relaxed master.  If the columns cover every customer and `use_all_vehicles` is off, the relaxed master problem
has a feasible point, whatever the fleet, penalties, frequencies.  With the global span, the columns must have the names
1, ..., 74 (see C52 for what happens otherwise). -/
theorem C57_relaxed_feasible (hall : M.useAllVehicles = false)
    (hcov : ∀ v ∈ M.G.customers, ∃ c ∈ cols, v ∈ c.visited M.globalSpan)
    (hspan : M.globalSpan = true → ∀ c ∈ cols, ∃ i < 75, c.name = .num i) :
    ∃ p, (M.lp cols true).Feasible p := by
  let S : ℚ := (cols.map (fun c => |c.cost|)).sum
  have hS : 0 ≤ S := list_sum_nonneg (by
    intro x hx; obtain ⟨c, _, rfl⟩ := List.mem_map.1 hx; exact abs_nonneg _)
  let p : MVar → ℚ := fun x => match x with
    | .y _ => 1
    | .drop _ => 0
    | .dummy v => |M.G.freq v|
    | .bound _ => cols.length
    | .makespan => S
  have hfreq : ∀ v, (0 : ℚ) ≤ p (.dummy v) := fun v => abs_nonneg _
  refine ⟨p, ⟨?_, ?_⟩⟩
  · intro d hd
    simp only [lp, varDecls, List.append_assoc, List.mem_append, List.mem_map] at hd
    rcases hd with ⟨c, _, rfl⟩ | ⟨v, _, rfl⟩ | ⟨v, _, rfl⟩ | ⟨k, _, rfl⟩ | hd
    · refine ⟨?_, ?_, fun _ => ⟨1, by simp [p]⟩⟩
      · intro a ha; cases ha; simp [p]
      · intro b hb; simp only [Bool.not_true, Bool.false_and, Bool.false_eq_true, if_false, Option.some.injEq] at hb
        subst hb; exact le_refl _
    · refine ⟨?_, ?_, fun _ => ⟨0, by simp [p]⟩⟩
      · intro a ha; cases ha; exact le_refl _
      · intro b hb; cases hb; simp [p]
    · refine ⟨?_, ?_, fun h => by simp at h⟩
      · intro a ha; cases ha; exact hfreq v
      · intro b hb; cases hb
    · refine ⟨?_, ?_, fun h => by simp at h⟩
      · intro a ha; cases ha; simp [p]
      · intro b hb; simp at hb
    · split at hd
      · rw [List.mem_singleton] at hd
        subst hd
        refine ⟨?_, ?_, fun h => by simp at h⟩
        · intro a ha; cases ha; exact hS
        · intro b hb; cases hb
      · simp at hd
  · intro c hc
    simp only [lp, List.append_assoc, List.mem_append, List.mem_map] at hc
    rcases hc with ⟨v, hv, rfl⟩ | hc | hc
    · -- covering
      have hcount : 1 ≤ (cols.map (fun c => ((c.visited M.globalSpan).count v : ℚ) * p (.y c.name))).sum := by
        obtain ⟨c, hc, hvc⟩ := hcov v hv
        have h1 := single_le_sum (l := cols) (f := fun c => ((c.visited M.globalSpan).count v : ℚ) * p (.y c.name))
          (fun x _ => by simp [p]) hc
        have h2 : 1 ≤ (c.visited M.globalSpan).count v := List.count_pos_iff.2 hvc
        have h3 : (1 : ℚ) ≤ ((c.visited M.globalSpan).count v : ℚ) * p (.y c.name) := by
          simp only [p, mul_one]; exact_mod_cast h2
        linarith
      have hd0 : (if v ∈ M.drops then p (.drop v) else 0) = 0 := by split <;> rfl
      show (M.visitConstr cols true v).rhs ≤ (M.visitConstr cols true v).lhs.eval p
      rw [visit_eval, hd0]
      simp only [visitConstr]
      by_cases hper : M.periodic = true
      · rw [if_pos hper]
        by_cases hf : M.G.freq v > 1
        · have : v ∈ M.dummies := by
            simp only [dummies, hper, if_true, List.mem_filter, decide_eq_true_eq]; exact ⟨hv, hf⟩
          rw [if_pos this]
          have : M.G.freq v ≤ p (.dummy v) := le_abs_self _
          linarith
        · have hle : M.G.freq v ≤ 1 := not_lt.1 hf
          have : (0 : ℚ) ≤ if v ∈ M.dummies then p (.dummy v) else 0 := by
            split
            · exact hfreq v
            · exact le_refl _
          linarith
      · rw [if_neg hper]
        have : (0 : ℚ) ≤ if v ∈ M.dummies then p (.dummy v) else 0 := by
          split
          · exact hfreq v
          · exact le_refl _
        linarith
    · split at hc
      · simp at hc
      · obtain ⟨k, hk, rfl⟩ := List.mem_mapIdx.1 hc
        have hs : (M.fleetConstr cols k M.numVehicles[k]).sense = .le := by simp [fleetConstr, hall]
        simp only [Constr.Holds, hs]
        rw [fleet_eval]
        have h1 : ((cols.filter (fun c => c.vehicleType = k)).map (fun c => p (.y c.name))).sum ≤ cols.length := by
          simp only [p, List.map_const', List.sum_replicate, nsmul_eq_mul, mul_one]
          exact_mod_cast List.length_filter_le _ _
        have h2 : (0 : ℚ) ≤ (M.numVehicles[k] : ℚ) := by exact_mod_cast Nat.zero_le _
        have h3 : p (.bound k) = cols.length := rfl
        simp only [fleetConstr]
        linarith
    · split at hc
      · rename_i hgs
        obtain ⟨i, hi, rfl⟩ := List.mem_map.1 hc
        show (spanConstr cols i).lhs.eval p ≤ 0
        rw [span_eval]
        by_cases h75 : i < 75
        · rw [if_pos h75]
          have h1 : ((cols.filter (fun c => c.name = .num i)).map (fun c => c.cost * p (.y c.name))).sum ≤ S := by
            refine le_trans ?_ (filter_sum_le (fun c => decide (c.name = .num i)) (f := fun c => |c.cost|)
              (fun c _ => abs_nonneg _))
            refine List.sum_le_sum ?_
            intro c _
            simp only [p, mul_one]
            exact le_abs_self _
          have : p .makespan = S := rfl
          linarith
        · rw [if_neg h75]
          have : cols.filter (fun c => c.name = .num i) = [] := by
            rw [List.filter_eq_nil_iff]
            intro c hc
            obtain ⟨j, hj, hn⟩ := hspan hgs c hc
            simp only [hn, ColName.num.injEq, decide_eq_true_eq]
            omega
          rw [this]
          simp
      · simp at hc

/-- **C57**, final master.  If the pool (with distinct names) contains columns `S` that visit every customer exactly once, do
not repeat customers, and respect the fleet, then the final integer master has a feasible point, also with frequencies
(whole numbers, at least 1) and penalties.  Without a fleet bound the hypothesis about the fleet is void. -/
theorem C57_final_feasible {S : List Column} (hnd : (cols.map Column.name).Nodup) (hS : S.Sublist cols)
    (hnon : ∀ c ∈ S, isNon c.name = false)
    (honce : ∀ v ∈ M.G.customers, (S.map (fun c => (c.visited M.globalSpan).count v)).sum = 1)
    (hfreq : M.periodic = true → ∀ v ∈ M.G.customers, 1 ≤ M.G.freq v ∧ ∃ z : Int, M.G.freq v = z)
    (hfleet : M.periodic = false → ∀ k n, M.numVehicles[k]? = some n →
      (S.filter (fun c => c.vehicleType = k)).length ≤ n ∧
        (M.useAllVehicles = true → (S.filter (fun c => c.vehicleType = k)).length = n))
    (hspan : M.globalSpan = true → ∀ c ∈ S, ∃ i < 75, c.name = .num i) :
    ∃ p, (M.lp cols false).Feasible p ∧ selected cols p = S := by
  let T : ℚ := (S.map (fun c => |c.cost|)).sum
  have hT : 0 ≤ T := list_sum_nonneg (by
    intro x hx; obtain ⟨c, _, rfl⟩ := List.mem_map.1 hx; exact abs_nonneg _)
  let p : MVar → ℚ := fun x => match x with
    | .y n => if n ∈ S.map Column.name then 1 else 0
    | .drop _ => 0
    | .dummy v => M.G.freq v - 1
    | .bound _ => 0
    | .makespan => T
  have hy01 : ∀ n, p (.y n) = 0 ∨ p (.y n) = 1 := fun n => by
    by_cases h : n ∈ S.map Column.name
    · right; simp only [p, if_pos h]
    · left; simp only [p, if_neg h]
  -- what is selected
  have hsel : selected cols p = S := by
    unfold selected
    clear honce hfleet hT hnon hspan hy01
    have hp : ∀ c ∈ cols, decide (p (.y c.name) > 0) = decide (c.name ∈ S.map Column.name) := by
      intro c _
      by_cases h : c.name ∈ S.map Column.name
      · simp only [p, if_pos h, h]; decide
      · simp only [p, if_neg h, h]; decide
    rw [List.filter_congr hp]
    clear hp p T
    induction hS with
    | slnil => rfl
    | cons c hs ih =>
      simp only [List.map_cons, List.nodup_cons] at hnd
      rw [List.filter_cons, if_neg, ih hnd.2]
      simp only [decide_eq_true_eq]
      intro hmem
      exact hnd.1 ((hs.map Column.name).subset hmem)
    | cons_cons c hs ih =>
      simp only [List.map_cons, List.nodup_cons] at hnd
      rw [List.filter_cons, if_pos (by simp)]
      congr 1
      refine Eq.trans (List.filter_congr ?_) (ih hnd.2)
      intro x hx
      have : x.name ≠ c.name := fun h => hnd.1 (h ▸ List.mem_map_of_mem hx)
      simp [this]
  have hsum : ∀ a : Column → ℚ, (cols.map (fun c => a c * p (.y c.name))).sum = (S.map a).sum := by
    intro a
    rw [sum_selected a (fun c _ => hy01 c.name), hsel]
  refine ⟨p, ⟨?_, ?_⟩, hsel⟩
  · intro d hd
    simp only [lp, varDecls, List.append_assoc, List.mem_append, List.mem_map] at hd
    rcases hd with ⟨c, hc, rfl⟩ | ⟨v, _, rfl⟩ | ⟨v, hv, rfl⟩ | ⟨k, _, rfl⟩ | hd
    · refine ⟨?_, ?_, ?_⟩
      · intro a ha; cases ha; rcases hy01 c.name with h | h <;> simp only [h] <;> norm_num
      · intro b hb
        simp only [Bool.not_false, Bool.true_and, Option.some.injEq] at hb
        subst hb
        by_cases hn : isNon c.name = true
        · rw [if_pos hn]
          have : c.name ∉ S.map Column.name := by
            intro h
            obtain ⟨c', hc', he⟩ := List.mem_map.1 h
            have := hnon c' hc'
            rw [he, hn] at this
            cases this
          simp only [p, if_neg this]; exact le_refl _
        · rw [if_neg hn]
          rcases hy01 c.name with h | h <;> simp only [h] <;> norm_num
      · intro _
        rcases hy01 c.name with h | h
        · exact ⟨0, by simp only [h]; norm_num⟩
        · exact ⟨1, by simp only [h]; norm_num⟩
    · refine ⟨?_, ?_, fun _ => ⟨0, by simp [p]⟩⟩
      · intro a ha; cases ha; exact le_refl _
      · intro b hb; cases hb; simp [p]
    · have hf : M.periodic = true ∧ v ∈ M.G.customers := by
        unfold dummies at hv
        split at hv
        · rename_i h; exact ⟨h, (List.mem_filter.1 hv).1⟩
        · simp at hv
      obtain ⟨h1, z, hz⟩ := hfreq hf.1 v hf.2
      refine ⟨?_, ?_, fun _ => ⟨z - 1, by simp [p, hz]⟩⟩
      · intro a ha; cases ha
        simp only [p]; linarith
      · intro b hb; cases hb
    · refine ⟨?_, ?_, fun h => by simp at h⟩
      · intro a ha; cases ha; simp [p]
      · intro b hb
        simp only [Bool.false_eq_true, if_false, Option.some.injEq] at hb
        subst hb; exact le_refl _
    · split at hd
      · rw [List.mem_singleton] at hd
        subst hd
        refine ⟨?_, ?_, fun h => by simp at h⟩
        · intro a ha; cases ha; exact hT
        · intro b hb; cases hb
      · simp at hd
  · intro c hc
    simp only [lp, List.append_assoc, List.mem_append, List.mem_map] at hc
    rcases hc with ⟨v, hv, rfl⟩ | hc | hc
    · have hd0 : (if v ∈ M.drops then p (.drop v) else 0) = 0 := by split <;> rfl
      show (M.visitConstr cols false v).lhs.eval p = (M.visitConstr cols false v).rhs
      rw [visit_eval, hd0, hsum]
      have h1 : (S.map (fun c => ((c.visited M.globalSpan).count v : ℚ))).sum = 1 := by
        have := honce v hv
        rw [show (S.map (fun c => ((c.visited M.globalSpan).count v : ℚ))).sum =
          (((S.map (fun c => (c.visited M.globalSpan).count v)).sum : ℕ) : ℚ) by
            clear * -
            induction S with
            | nil => rfl
            | cons c S ih => simp only [List.map_cons, List.sum_cons, Nat.cast_add, ih], this]
        norm_num
      rw [h1]
      simp only [visitConstr]
      by_cases hper : M.periodic = true
      · rw [if_pos hper]
        have hf := (hfreq hper v hv).1
        by_cases hgt : M.G.freq v > 1
        · have : v ∈ M.dummies := by
            simp only [dummies, hper, if_true, List.mem_filter, decide_eq_true_eq]; exact ⟨hv, hgt⟩
          rw [if_pos this]
          simp only [p]; ring
        · have : v ∉ M.dummies := by
            simp only [dummies, hper, if_true, List.mem_filter, decide_eq_true_eq]; exact fun h => hgt h.2
          rw [if_neg this]
          have : M.G.freq v = 1 := le_antisymm (not_lt.1 hgt) hf
          rw [this]; norm_num
      · have : v ∉ M.dummies := by simp [dummies, hper]
        rw [if_neg hper, if_neg this]; norm_num
    · split at hc
      · simp at hc
      · rename_i hper
        obtain ⟨k, hk, rfl⟩ := List.mem_mapIdx.1 hc
        have hk' : M.numVehicles[k]? = some M.numVehicles[k] := List.getElem?_eq_getElem hk
        obtain ⟨f1, f2⟩ := hfleet (by simpa using hper) k _ hk'
        have heq : ((cols.filter (fun c => c.vehicleType = k)).map (fun c => p (.y c.name))).sum =
            ((S.filter (fun c => c.vehicleType = k)).length : ℚ) := by
          have h1 := hsum (fun c => if c.vehicleType = k then 1 else 0)
          have h2 : ∀ l : List Column, (l.map (fun c => (if c.vehicleType = k then (1 : ℚ) else 0) * p (.y c.name))).sum =
              ((l.filter (fun c => c.vehicleType = k)).map (fun c => p (.y c.name))).sum := by
            intro l
            induction l with
            | nil => rfl
            | cons c l ih =>
              rw [List.filter_cons]
              by_cases h : c.vehicleType = k
              · rw [if_pos (by simpa using h), List.map_cons, List.map_cons, List.sum_cons, List.sum_cons, ih, if_pos h, one_mul]
              · rw [if_neg (by simpa using h), List.map_cons, List.sum_cons, ih, if_neg h, zero_mul, zero_add]
          have h3 : ∀ l : List Column, (l.map (fun c => if c.vehicleType = k then (1 : ℚ) else 0)).sum =
              ((l.filter (fun c => c.vehicleType = k)).length : ℚ) := by
            intro l
            induction l with
            | nil => simp
            | cons c l ih =>
              rw [List.filter_cons]
              by_cases h : c.vehicleType = k
              · simp [h, ih]; ring
              · simp [h, ih]
          rw [← h2, h1, h3]
        have hb : p (.bound k) = 0 := rfl
        by_cases hall : M.useAllVehicles = true
        · have hs : (M.fleetConstr cols k M.numVehicles[k]).sense = .eq := by simp [fleetConstr, hall]
          simp only [Constr.Holds, hs]
          rw [fleet_eval, heq, hb, f2 hall]
          simp [fleetConstr]
        · have hs : (M.fleetConstr cols k M.numVehicles[k]).sense = .le := by simp [fleetConstr, hall]
          simp only [Constr.Holds, hs]
          rw [fleet_eval, heq, hb]
          simp only [fleetConstr, sub_zero]
          exact_mod_cast f1
    · split at hc
      · rename_i hgs
        obtain ⟨i, hi, rfl⟩ := List.mem_map.1 hc
        show (spanConstr cols i).lhs.eval p ≤ 0
        rw [span_eval]
        have hfil : ∀ c ∈ cols.filter (fun c => c.name = .num i), c.cost * p (.y c.name) ≠ 0 → c ∈ S := by
          intro c hc hne
          rw [← hsel]
          refine mem_selected.2 ⟨(List.mem_filter.1 hc).1, ?_⟩
          rcases hy01 c.name with h | h
          · rw [h] at hne; simp at hne
          · rw [h]; norm_num
        by_cases h75 : i < 75
        · rw [if_pos h75]
          have h1 : ((cols.filter (fun c => c.name = .num i)).map (fun c => c.cost * p (.y c.name))).sum ≤ T := by
            have e1 : T = (cols.map (fun c => |c.cost| * p (.y c.name))).sum := (hsum _).symm
            rw [e1]
            refine le_trans ?_ (filter_sum_le (fun c => decide (c.name = .num i))
              (f := fun c => |c.cost| * p (.y c.name)) (fun c _ => ?_))
            · refine List.sum_le_sum ?_
              intro c _
              rcases hy01 c.name with h | h <;> simp only [h]
              · simp
              · simpa using le_abs_self c.cost
            · rcases hy01 c.name with h | h <;> simp only [h]
              · simp
              · simp
          have : p .makespan = T := rfl
          linarith
        · rw [if_neg h75]
          have : ((cols.filter (fun c => c.name = .num i)).map (fun c => c.cost * p (.y c.name))).sum = 0 := by
            apply List.sum_eq_zero
            intro x hx
            obtain ⟨c, hc, rfl⟩ := List.mem_map.1 hx
            by_contra hne
            obtain ⟨j, hj, hn⟩ := hspan hgs c (hfil c hc hne)
            have := (List.mem_filter.1 hc).2
            rw [hn] at this
            simp only [ColName.num.injEq, decide_eq_true_eq] at this
            omega
          rw [this]; simp
      · simp at hc

/-- The columns of routes visit what the routes visit. -/
private theorem drawn_visits {G : Net} {S : List Column} {ps : List (List Node)} (h : List.Forall₂ Draws S ps) (gs : Bool)
    {v : Node} (h1 : v ≠ .source) (h2 : v ≠ .sink) :
    (S.map (fun c => (c.visited gs).count v)).sum = ps.flatten.count v := by
  induction h with
  | nil => rfl
  | cons hd _ ih => simp only [List.map_cons, List.sum_cons, List.flatten_cons, List.count_append, ih, visited_count hd gs h1 h2]

/-- Sublists of the routes are sublists of the columns. -/
private theorem drawn_sublist {cs : List Column} {rs ps : List (List Node)} (h : List.Forall₂ Draws cs rs)
    (hps : ps.Sublist rs) : ∃ S, S.Sublist cs ∧ List.Forall₂ Draws S ps := by
  induction hps generalizing cs with
  | slnil => cases h; exact ⟨[], List.Sublist.refl _, .nil⟩
  | cons r _ ih =>
    cases h with
    | cons hd ht =>
      obtain ⟨S, h1, h2⟩ := ih ht
      exact ⟨S, h1.cons _, h2⟩
  | cons_cons r _ ih =>
    cases h with
    | cons hd ht =>
      obtain ⟨S, h1, h2⟩ := ih ht
      exact ⟨_ :: S, h1.cons_cons _, .cons hd h2⟩

/-- **C57**, from the start: let the pool contain columns `init` drawing the routes of an initial solution that covers each
customer once by some of its routes (as in `C56_initial_routes` and `C56_initial_columns`), possibly followed by other
columns, all names distinct.  Without global span: the relaxed master is feasible unless `use_all_vehicles`, and without a
fleet bound the final one is feasible too. -/
theorem C57_start {init rest : List Column} {rs ps : List (List Node)} (hspan : M.globalSpan = false)
    (hdraw : List.Forall₂ Draws init rs) (hps : ps.Sublist rs) (honce : VisitsEachOnce M.G.customers ps)
    (hname : ∀ c ∈ init, ∃ n, c.name = .num n) (hnd : ((init ++ rest).map Column.name).Nodup)
    (hfreq : M.periodic = true → ∀ v ∈ M.G.customers, 1 ≤ M.G.freq v ∧ ∃ z : Int, M.G.freq v = z) :
    (M.useAllVehicles = false → ∃ p, (M.lp (init ++ rest) true).Feasible p) ∧
    (M.numVehicles = [] → ∃ p, (M.lp (init ++ rest) false).Feasible p) := by
  obtain ⟨S, hS, hSd⟩ := drawn_sublist hdraw hps
  have hS1 : ∀ v ∈ M.G.customers, (S.map (fun c => (c.visited M.globalSpan).count v)).sum = 1 := by
    intro v hv
    have hv' := mem_customers.1 hv
    rw [drawn_visits (G := M.G) hSd _ hv'.2.1 hv'.2.2, ← honce v hv, List.count, List.countP_eq_length_filter]
    congr 2
  constructor
  · intro hall
    refine C57_relaxed_feasible hall ?_ (fun h => by rw [hspan] at h; cases h)
    intro v hv
    have h1 := hS1 v hv
    have : ∃ c ∈ S, v ∈ c.visited M.globalSpan := by
      by_contra hno
      push Not at hno
      have : (S.map (fun c => (c.visited M.globalSpan).count v)).sum = 0 := by
        apply List.sum_eq_zero
        intro x hx
        obtain ⟨c, hc, rfl⟩ := List.mem_map.1 hx
        exact List.count_eq_zero.2 (hno c hc)
      omega
    obtain ⟨c, hc, hvc⟩ := this
    exact ⟨c, List.mem_append_left _ (hS.subset hc), hvc⟩
  · intro hnv
    obtain ⟨p, hp, _⟩ := C57_final_feasible (M := M) (cols := init ++ rest) (S := S) hnd
      (hS.trans (List.sublist_append_left _ _)) (fun c hc => by
        obtain ⟨n, hn⟩ := hname c (hS.subset hc)
        rw [hn]; rfl) hS1 hfreq (fun _ k n hk => by rw [hnv] at hk; simp at hk)
      (fun h => by rw [hspan] at h; cases h)
    exact ⟨p, hp⟩

/-- The hypotheses of `C57_start` and `C57_final_feasible` hold for the three round trips of `exTri` and its whole pool. -/
example : List.Forall₂ Draws [exCol 1 [.cust 1], exCol 2 [.cust 2], exCol 3 [.cust 3]]
      [routeOf [.cust 1], routeOf [.cust 2], routeOf [.cust 3]] ∧
    VisitsEachOnce exTri.customers [routeOf [.cust 1], routeOf [.cust 2], routeOf [.cust 3]] ∧
    (exPool.map Column.name).Nodup ∧
    exPool = [exCol 1 [.cust 1], exCol 2 [.cust 2], exCol 3 [.cust 3]] ++ exPool.drop 3 := by
  have h : ∀ i mid, Draws (exCol i mid) (routeOf mid) := fun i mid =>
    ⟨List.Perm.refl _, List.Perm.refl _, by intro p hp; cases hp⟩
  refine ⟨.cons (h _ _) (.cons (h _ _) (.cons (h _ _) .nil)), ?_, by decide, rfl⟩
  unfold VisitsEachOnce
  decide +kernel

/-- With `use_all_vehicles` the master problem can be infeasible from the start: one customer and time windows, so the only
initial column is its round trip, but two vehicles; the first relaxed master has no feasible point (`solve()` raises). -/
theorem C57_use_all_counterexample :
    ∃ (N : Net) (P : Vrp) (cols : List Column), WellFormed N ∧ DepotConnected N ∧ CostsFor N 1 ∧
      (∀ o fuel, P.initialize N o fuel = .ok (some ({ P with initialRoutes := [[.source, .cust 1, .sink]] }, cols))) ∧
      ∀ p, ¬ ((⟨N, 0, [2], true, false, false⟩ : Master).lp cols true).Feasible p := by
  let N : Net := {
    nodes := [.source, .cust 1, .sink]
    succ := fun u => match u with
      | .source => [.cust 1, .sink]
      | .cust 1 => [.sink]
      | _ => []
    cost := fun _ _ => [1] }
  let c : Column := {
    name := .num 1
    nodes := [.source, .cust 1, .sink]
    edges := [(.source, .cust 1), (.cust 1, .sink)]
    cost := 2
    vehicleType := 0 }
  let P : Vrp := { G := N.toDiGraph, timeWindows := true, numVehicles := .many [2], useAllVehicles := true }
  refine ⟨N, P, [c], ?_, ?_, fun u v _ => by simp [N], ?_, ?_⟩
  · refine ⟨by decide, ?_, ?_, by decide, by decide, ?_, rfl⟩
    · intro u; simp only [N]; split <;> decide
    · intro u v; simp only [N]; split <;> simp <;> tauto
    · intro u; simp only [N]; split <;> decide
  · intro n hn
    simp only [N, List.mem_cons, Node.cust.injEq, reduceCtorEq, List.not_mem_nil, or_false, false_or] at hn
    subst hn
    exact ⟨by decide, by decide⟩
  · intro o fuel
    have h1 : P.chooseInitial N o fuel = .ok (some [[.source, .cust 1, .sink]]) := rfl
    have h2 : convertRoutes N (capacities P.loadCapacity.toList) [[.source, .cust 1, .sink]] = .ok [c] := by
      decide +kernel
    unfold Vrp.initialize
    rw [h1]
    simp only [h2]
  · intro p hp
    have h1 := hp.constrs ((⟨N, 0, [2], true, false, false⟩ : Master).fleetConstr [c] 0 2) (by
      simp [lp, List.mapIdx, List.mapIdx.go])
    have h2 := hp.vars { var := .y (.num 1), lo := some 0, up := some 1, isInt := false } (by
      simp [lp, varDecls, c])
    have h3 := hp.vars { var := .bound 0, lo := some 0, up := none } (by simp [lp, varDecls])
    have h1 : ((⟨N, 0, [2], true, false, false⟩ : Master).fleetConstr [c] 0 2).lhs.eval p = 2 := h1
    rw [fleet_eval] at h1
    have e : ((([c] : List Column).filter (fun c => c.vehicleType = 0)).map (fun c => p (.y c.name))).sum = p (.y (.num 1)) := by
      simp [c]
    rw [e] at h1
    have h2 : p (.y (.num 1)) ≤ 1 := h2.2.1 1 rfl
    have h3 : 0 ≤ p (.bound 0) := h3.1 0 rfl
    linarith

end Master

end Vrpy
