import Verif.Proofs.Termination

/-!
# The value of the relaxed master problem, if a column that is already there often enough is added once more
-/

namespace Vrpy

open Spec

/-- What the relaxed master problem knows about a column, besides its name. -/
def Column.key (c : Column) : List Node × ℚ × Nat := (c.visited false, c.cost, c.vehicleType)

theorem sum_split {α : Type} (q : α → Bool) (g : α → ℚ) (l : List α) :
    (l.map g).sum = ((l.filter q).map g).sum + ((l.filter (fun x => !q x)).map g).sum := by
  induction l with
  | nil => simp
  | cons x l ih =>
    rw [List.map_cons, List.sum_cons, ih]
    cases hq : q x with
    | true =>
      rw [List.filter_cons_of_pos hq, List.filter_cons_of_neg (by simp [hq])]
      simp only [List.map_cons, List.sum_cons]
      ring
    | false =>
      rw [List.filter_cons_of_neg (by simp [hq]), List.filter_cons_of_pos (by simp [hq])]
      simp only [List.map_cons, List.sum_cons]
      ring

theorem sum_filter_ite {α : Type} (q : α → Bool) (g : α → ℚ) (l : List α) :
    ((l.filter q).map g).sum = (l.map (fun x => (if q x then 1 else 0) * g x)).sum := by
  induction l with
  | nil => rfl
  | cons x l ih =>
    cases hq : q x with
    | true => simp [List.filter_cons_of_pos hq, ih, hq]
    | false =>
      rw [List.filter_cons_of_neg (by simp [hq]), ih]
      simp [hq]

theorem rhs_lt_copies {M : Master} {cols : List Column} {v : Node} (hv : v ∈ M.G.customers) :
    (M.visitConstr cols true v).rhs < M.copies := by
  unfold Master.visitConstr Master.copies
  simp only
  split
  · have h1 := Nat.le_ceil (M.G.freq v)
    have h2 : ⌈M.G.freq v⌉₊ ≤ (M.G.customers.map (fun v => ⌈M.G.freq v⌉₊)).sum :=
      List.single_le_sum (fun _ _ => Nat.zero_le _) _ (List.mem_map_of_mem hv)
    have h3 : (⌈M.G.freq v⌉₊ : ℚ) ≤ ((M.G.customers.map (fun v => ⌈M.G.freq v⌉₊)).sum : ℕ) := by exact_mod_cast h2
    have h4 : (0 : ℚ) ≤ (M.numVehicles.sum : ℕ) := by positivity
    rw [Nat.cast_add, Nat.cast_add]
    push_cast at h3 h4 ⊢
    linarith
  · have : 1 < 2 + M.numVehicles.sum + (M.G.customers.map (fun v => ⌈M.G.freq v⌉₊)).sum := by omega
    exact_mod_cast this

/-- The part of the relaxed problem that does not belong to the columns. -/
theorem lp_vars {M : Master} {cols : List Column} (hspan : M.globalSpan = false) {p : MVar → ℚ} :
    (∀ d ∈ (M.lp cols true).vars, d.Holds p) ↔ (∀ c ∈ cols, 0 ≤ p (.y c.name) ∧ p (.y c.name) ≤ 1) ∧
      (∀ v ∈ M.drops, 0 ≤ p (.drop v) ∧ p (.drop v) ≤ 1 ∧ ∃ z : Int, p (.drop v) = z) ∧
      (∀ v ∈ M.dummies, 0 ≤ p (.dummy v)) ∧ ∀ k < M.numVehicles.length, 0 ≤ p (.bound k) := by
  simp only [Master.lp, Master.varDecls, hspan, List.mem_append, List.mem_map, List.mem_range, Bool.false_eq_true, if_false,
    List.not_mem_nil, or_false, Bool.not_true, Bool.false_and, Bool.or_false]
  constructor
  · intro h
    refine ⟨fun c hc => ?_, fun v hv => ?_, fun v hv => ?_, fun k hk => ?_⟩
    · have := h _ (Or.inl (Or.inl (Or.inl ⟨c, hc, rfl⟩)))
      exact ⟨this.1 0 rfl, this.2.1 1 rfl⟩
    · have := h _ (Or.inl (Or.inl (Or.inr ⟨v, hv, rfl⟩)))
      exact ⟨this.1 0 rfl, this.2.1 1 rfl, this.2.2 rfl⟩
    · exact (h _ (Or.inl (Or.inr ⟨v, hv, rfl⟩))).1 0 rfl
    · exact (h _ (Or.inr ⟨k, hk, rfl⟩)).1 0 rfl
  · rintro ⟨h1, h2, h3, h4⟩ d (((⟨c, hc, rfl⟩ | ⟨v, hv, rfl⟩) | ⟨v, hv, rfl⟩) | ⟨k, hk, rfl⟩)
    · refine ⟨?_, ?_, fun h => (by cases h)⟩
      · intro a ha; cases ha; exact (h1 c hc).1
      · intro a ha; cases ha; exact (h1 c hc).2
    · refine ⟨?_, ?_, fun _ => (h2 v hv).2.2⟩
      · intro a ha; cases ha; exact (h2 v hv).1
      · intro a ha; cases ha; exact (h2 v hv).2.1
    · refine ⟨?_, ?_, fun h => (by cases h)⟩
      · intro a ha; cases ha; exact h3 v hv
      · intro a ha; cases ha
    · refine ⟨?_, ?_, fun h => (by cases h)⟩
      · intro a ha; cases ha; exact h4 k hk
      · intro a ha; cases ha

theorem lp_constrs {M : Master} {cols : List Column} (hspan : M.globalSpan = false) {p : MVar → ℚ} :
    (∀ c ∈ (M.lp cols true).constrs, c.Holds p) ↔ (∀ v ∈ M.G.customers, (M.visitConstr cols true v).Holds p) ∧
      (M.periodic = false → ∀ k n, M.numVehicles[k]? = some n → (M.fleetConstr cols k n).Holds p) := by
  simp only [Master.lp, hspan, List.mem_append, List.mem_map, Bool.false_eq_true, if_false, List.not_mem_nil, or_false]
  constructor
  · intro h
    refine ⟨fun v hv => h _ (Or.inl ⟨v, hv, rfl⟩), fun hper k n hk => h _ (Or.inr ?_)⟩
    rw [hper]
    simp only [Bool.false_eq_true, if_false, List.mem_mapIdx]
    obtain ⟨hlt, he⟩ := List.getElem?_eq_some_iff.1 hk
    exact ⟨k, hlt, by rw [he]⟩
  · rintro ⟨h1, h2⟩ c (⟨v, hv, rfl⟩ | hc)
    · exact h1 v hv
    · cases hper : M.periodic with
      | true => simp [hper] at hc
      | false =>
        simp only [hper, Bool.false_eq_true, if_false, List.mem_mapIdx] at hc
        obtain ⟨k, hk, rfl⟩ := hc
        exact h2 hper k _ (List.getElem?_eq_getElem hk)

/-- The value of a covering constraint, of a fleet constraint, and of the objective. -/
theorem visit_eval (M : Master) (cols : List Column) (hspan : M.globalSpan = false) (p : MVar → ℚ) (v : Node) :
    (M.visitConstr cols true v).lhs.eval p = (cols.map (fun c => ((c.visited false).count v : ℚ) * p (.y c.name))).sum +
      (LinExpr.eval (if v ∈ M.drops then [((1 : ℚ), MVar.drop v)] else []) p +
        LinExpr.eval (if v ∈ M.dummies then [((1 : ℚ), MVar.dummy v)] else []) p) := by
  simp only [Master.visitConstr, eval_append, eval_map, hspan]
  ring

theorem fleet_eval (M : Master) (cols : List Column) (p : MVar → ℚ) (k n : Nat) :
    (M.fleetConstr cols k n).lhs.eval p =
      (cols.map (fun c => (if c.vehicleType = k then 1 else 0) * p (.y c.name))).sum - p (.bound k) := by
  simp only [Master.fleetConstr, eval_append, eval_map, eval_cons, eval_nil]
  rw [sum_filter_ite]
  simp only [decide_eq_true_eq, one_mul]
  ring

theorem objective_eval (M : Master) (cols : List Column) (hspan : M.globalSpan = false) (p : MVar → ℚ) :
    (M.lp cols true).obj.eval p = (cols.map (fun c => c.cost * p (.y c.name))).sum +
      ((M.drops.map (fun v => M.dropPenalty * p (.drop v))).sum + (M.dummies.map (fun v => Master.big * p (.dummy v))).sum) +
      ((List.range M.numVehicles.length).map (fun k => Master.big * p (.bound k))).sum := by
  simp only [Master.lp, Master.objective, hspan, Bool.false_eq_true, if_false, eval_append, eval_map]
  ring

/-- A column that is in the pool often enough changes nothing: its share can be spread over its copies. -/
theorem value_without {M : Master} {cols : List Column} {c : Column} (hspan : M.globalSpan = false)
    (hnames : (cols.map Column.name).Nodup) (hcost : 0 ≤ c.cost)
    (hmany : M.copies ≤ cols.countP (fun c' => c'.key = c.key)) {p : MVar → ℚ} (hp : (M.lp (cols ++ [c]) true).Feasible p) :
    ∃ p', (M.lp cols true).Feasible p' ∧ (M.lp cols true).obj.eval p' ≤ (M.lp (cols ++ [c]) true).obj.eval p := by
  obtain ⟨hy, hdrop, hdummy, hbound⟩ := (lp_vars hspan).1 hp.vars
  obtain ⟨hvisit, hfleet⟩ := (lp_constrs hspan).1 hp.constrs
  -- the copies
  obtain ⟨L, hL⟩ : ∃ L, L = cols.filter (fun c' => decide (c'.key = c.key)) := ⟨_, rfl⟩
  obtain ⟨R, hR⟩ : ∃ R, R = cols.filter (fun c' => !decide (c'.key = c.key)) := ⟨_, rfl⟩
  have hm : M.copies ≤ L.length := by
    rw [hL, ← List.countP_eq_length_filter]
    exact hmany
  have hm0 : (0 : ℚ) < L.length := by
    have : 0 < L.length := lt_of_lt_of_le (by unfold Master.copies; omega) hm
    exact_mod_cast this
  obtain ⟨T, hT⟩ : ∃ T, T = (L.map (fun c' => p (.y c'.name))).sum + p (.y c.name) := ⟨_, rfl⟩
  obtain ⟨T', hT'⟩ : ∃ T', T' = min T (L.length : ℚ) := ⟨_, rfl⟩
  have hyc := hy c (by simp)
  have hT0 : 0 ≤ T := by
    rw [hT]
    refine add_nonneg (List.sum_nonneg ?_) hyc.1
    intro x hx
    obtain ⟨c', hc', rfl⟩ := List.mem_map.1 hx
    rw [hL] at hc'
    exact (hy c' (List.mem_append_left _ (List.mem_filter.1 hc').1)).1
  have hle : T' ≤ T := hT' ▸ min_le_left _ _
  have hlem : T' ≤ L.length := hT' ▸ min_le_right _ _
  have hT'0 : 0 ≤ T' := hT' ▸ le_min hT0 hm0.le
  have hcases : T' = T ∨ (M.copies : ℚ) ≤ T' := by
    rcases le_total T (L.length : ℚ) with h | h
    · exact Or.inl (by rw [hT', min_eq_left h])
    · refine Or.inr ?_
      rw [hT', min_eq_right h]
      exact_mod_cast hm
  let less : Nat → Prop := fun k => M.useAllVehicles = true ∧ M.periodic = false ∧ k = c.vehicleType
  have : DecidablePred less := fun k => by unfold less; infer_instance
  let p' : MVar → ℚ := fun x => match x with
    | .y n => if n ∈ L.map Column.name then T' / L.length else p (.y n)
    | .bound k => if less k then p (.bound k) - (T - T') else p (.bound k)
    | x => p x
  have hpL : ∀ c' ∈ L, p' (.y c'.name) = T' / L.length := fun c' hc' => if_pos (List.mem_map_of_mem hc')
  have hpR : ∀ c' ∈ R, p' (.y c'.name) = p (.y c'.name) := by
    intro c' hc'
    refine if_neg (fun hm => ?_)
    obtain ⟨c'', hc'', he⟩ := List.mem_map.1 hm
    rw [hL] at hc''
    rw [hR] at hc'
    have h1 := List.mem_filter.1 hc''
    have h2 := List.mem_filter.1 hc'
    have := List.inj_on_of_nodup_map hnames h1.1 h2.1 he
    subst this
    simp only [decide_eq_true_eq, Bool.not_eq_true', decide_eq_false_iff_not] at h1 h2
    exact h2.2 h1.2
  -- sums over the columns
  have hnew : ∀ f : Column → ℚ, (∀ c', c'.key = c.key → f c' = f c) →
      (cols.map (fun c' => f c' * p' (.y c'.name))).sum = f c * T' + (R.map (fun c' => f c' * p (.y c'.name))).sum := by
    intro f hf
    rw [sum_split (fun c' => decide (c'.key = c.key)), ← hL, ← hR]
    congr 1
    · have : L.map (fun c' => f c' * p' (.y c'.name)) = L.map (fun _ => f c * (T' / L.length)) := by
        refine List.map_congr_left (fun c' hc' => ?_)
        rw [hpL c' hc', hf c' (by rw [hL] at hc'; simpa using (List.mem_filter.1 hc').2)]
      rw [this, List.map_const', List.sum_replicate, nsmul_eq_mul]
      field_simp
    · refine congrArg _ (List.map_congr_left (fun c' hc' => ?_))
      rw [hpR c' hc']
  have hold : ∀ f : Column → ℚ, (∀ c', c'.key = c.key → f c' = f c) →
      ((cols ++ [c]).map (fun c' => f c' * p (.y c'.name))).sum = f c * T + (R.map (fun c' => f c' * p (.y c'.name))).sum := by
    intro f hf
    rw [List.map_append, List.sum_append, sum_split (fun c' => decide (c'.key = c.key)), ← hL, ← hR]
    have : L.map (fun c' => f c' * p (.y c'.name)) = L.map (fun c' => f c * p (.y c'.name)) := by
      refine List.map_congr_left (fun c' hc' => ?_)
      rw [hf c' (by rw [hL] at hc'; simpa using (List.mem_filter.1 hc').2)]
    rw [this, List.sum_map_mul_left, hT]
    simp only [List.map_cons, List.map_nil, List.sum_cons, List.sum_nil]
    ring
  have hRnn : ∀ f : Column → ℚ, (∀ c', 0 ≤ f c') → 0 ≤ (R.map (fun c' => f c' * p (.y c'.name))).sum := by
    intro f hf
    refine List.sum_nonneg (fun x hx => ?_)
    obtain ⟨c', hc', rfl⟩ := List.mem_map.1 hx
    rw [hR] at hc'
    exact mul_nonneg (hf c') (hy c' (List.mem_append_left _ (List.mem_filter.1 hc').1)).1
  have hkv : ∀ (v : Node) (c' : Column), c'.key = c.key → ((c'.visited false).count v : ℚ) = ((c.visited false).count v : ℚ) := by
    intro v c' h
    rw [show c'.visited false = c.visited false from congrArg Prod.fst h]
  have hkc : ∀ c' : Column, c'.key = c.key → c'.cost = c.cost := fun c' h => congrArg (fun x : List Node × ℚ × Nat => x.2.1) h
  have hkt : ∀ (k : Nat) (c' : Column), c'.key = c.key → (if c'.vehicleType = k then (1 : ℚ) else 0) = if c.vehicleType = k then 1 else 0 := by
    intro k c' h
    rw [show c'.vehicleType = c.vehicleType from congrArg (fun x : List Node × ℚ × Nat => x.2.2) h]
  -- artificial vehicles
  have hlt : ∀ k n : Nat, M.numVehicles[k]? = some n → (n : ℚ) < M.copies := by
    intro k n hn
    have : n ≤ M.numVehicles.sum := List.single_le_sum (fun _ _ => Nat.zero_le _) _ (List.mem_of_getElem? hn)
    have : n < M.copies := by unfold Master.copies; omega
    exact_mod_cast this
  have hb : ∀ k, p' (.bound k) = if less k then p (.bound k) - (T - T') else p (.bound k) := fun _ => rfl
  have hble : ∀ k, p' (.bound k) ≤ p (.bound k) := by
    intro k
    rw [hb]
    split
    · linarith
    · exact le_refl _
  have hother : (∀ v, p' (.drop v) = p (.drop v)) ∧ ∀ v, p' (.dummy v) = p (.dummy v) := ⟨fun _ => rfl, fun _ => rfl⟩
  refine ⟨p', ⟨(lp_vars hspan).2 ⟨?_, hdrop, hdummy, ?_⟩, (lp_constrs hspan).2 ⟨?_, ?_⟩⟩, ?_⟩
  · intro c' hc'
    by_cases hk : c'.key = c.key
    · rw [hpL c' (by rw [hL]; exact List.mem_filter.2 ⟨hc', by simpa using hk⟩)]
      exact ⟨div_nonneg hT'0 hm0.le, (div_le_one hm0).2 hlem⟩
    · rw [hpR c' (by rw [hR]; exact List.mem_filter.2 ⟨hc', by simpa using hk⟩)]
      exact hy c' (List.mem_append_left _ hc')
  · intro k hk
    rw [hb]
    split
    · rename_i hl
      obtain ⟨hu, hper, rfl⟩ := hl
      obtain ⟨n, hn⟩ : ∃ n, M.numVehicles[c.vehicleType]? = some n := ⟨_, List.getElem?_eq_getElem hk⟩
      rcases hcases with h | h
      · rw [h, sub_self, sub_zero]
        exact hbound _ hk
      · have h1 := hfleet hper _ n hn
        have h2 := fleet_eval M (cols ++ [c]) p c.vehicleType n
        simp only [Constr.Holds, Master.fleetConstr, hu, if_true] at h1 h2
        rw [h1, hold (fun c' => if c'.vehicleType = c.vehicleType then 1 else 0) (hkt c.vehicleType), if_pos rfl, one_mul] at h2
        have h3 := hRnn (fun c' => if c'.vehicleType = c.vehicleType then 1 else 0) (fun c' => by split <;> norm_num)
        have := hlt _ n hn
        linarith
    · exact hbound k hk
  · intro v hv
    have h1 := hvisit v hv
    have h2 := rhs_lt_copies (cols := cols) hv
    simp only [Constr.Holds] at h1 ⊢
    have hs1 : (M.visitConstr (cols ++ [c]) true v).sense = .ge := rfl
    have hs2 : (M.visitConstr cols true v).sense = .ge := rfl
    have hr : (M.visitConstr (cols ++ [c]) true v).rhs = (M.visitConstr cols true v).rhs := rfl
    rw [hs1] at h1
    rw [hs2]
    simp only at h1 ⊢
    rw [visit_eval M _ hspan, hold (fun c' => ((c'.visited false).count v : ℚ)) (hkv v), hr] at h1
    rw [visit_eval M _ hspan, hnew (fun c' => ((c'.visited false).count v : ℚ)) (hkv v)]
    have he1 : LinExpr.eval (if v ∈ M.drops then [((1 : ℚ), MVar.drop v)] else []) p' =
        LinExpr.eval (if v ∈ M.drops then [((1 : ℚ), MVar.drop v)] else []) p := by
      split
      · simp [hother.1]
      · simp
    have he2 : LinExpr.eval (if v ∈ M.dummies then [((1 : ℚ), MVar.dummy v)] else []) p' =
        LinExpr.eval (if v ∈ M.dummies then [((1 : ℚ), MVar.dummy v)] else []) p := by
      split
      · simp [hother.2]
      · simp
    rw [he1, he2]
    have hp1 : (0 : ℚ) ≤ LinExpr.eval (if v ∈ M.drops then [((1 : ℚ), MVar.drop v)] else []) p := by
      split
      · rename_i hm
        simpa using (hdrop v hm).1
      · simp
    have hp2 : (0 : ℚ) ≤ LinExpr.eval (if v ∈ M.dummies then [((1 : ℚ), MVar.dummy v)] else []) p := by
      split
      · rename_i hm
        simpa using hdummy v hm
      · simp
    have hp3 := hRnn (fun c' => ((c'.visited false).count v : ℚ)) (fun c' => by positivity)
    rcases hcases with h | h
    · rw [h]
      exact h1
    · rcases Nat.eq_zero_or_pos ((c.visited false).count v) with h0 | h0
      · rw [h0] at h1 ⊢
        simpa using h1
      · have : (1 : ℚ) ≤ ((c.visited false).count v : ℚ) := by exact_mod_cast h0
        have := mul_le_mul_of_nonneg_right this hT'0
        linarith
  · intro hper k n hn
    have h1 := hfleet hper k n hn
    have e1 := fleet_eval M (cols ++ [c]) p k n
    have e2 := fleet_eval M cols p' k n
    rw [hold (fun c' => if c'.vehicleType = k then 1 else 0) (hkt k)] at e1
    rw [hnew (fun c' => if c'.vehicleType = k then 1 else 0) (hkt k)] at e2
    have hr : (M.fleetConstr (cols ++ [c]) k n).rhs = n := rfl
    have hr' : (M.fleetConstr cols k n).rhs = n := rfl
    unfold Constr.Holds at h1 ⊢
    cases hu : M.useAllVehicles with
    | true =>
      have hs1 : (M.fleetConstr (cols ++ [c]) k n).sense = .eq := by simp [Master.fleetConstr, hu]
      have hs2 : (M.fleetConstr cols k n).sense = .eq := by simp [Master.fleetConstr, hu]
      rw [hs1, hr] at h1
      rw [hs2, hr']
      simp only at h1 ⊢
      rw [e1] at h1
      rw [e2, hb]
      by_cases hk : c.vehicleType = k
      · rw [if_pos hk] at h1 ⊢
        rw [if_pos ⟨hu, hper, hk.symm⟩]
        linarith
      · rw [if_neg hk] at h1 ⊢
        rw [if_neg (fun h => hk h.2.2.symm)]
        linarith
    | false =>
      have hs1 : (M.fleetConstr (cols ++ [c]) k n).sense = .le := by simp [Master.fleetConstr, hu]
      have hs2 : (M.fleetConstr cols k n).sense = .le := by simp [Master.fleetConstr, hu]
      rw [hs1, hr] at h1
      rw [hs2, hr']
      simp only at h1 ⊢
      rw [e1] at h1
      have hbk : p' (.bound k) = p (.bound k) := (hb k).trans (if_neg (fun h : less k => by
        have := h.1
        rw [hu] at this
        cases this))
      rw [e2, hbk]
      have : (if c.vehicleType = k then (1 : ℚ) else 0) * T' ≤ (if c.vehicleType = k then (1 : ℚ) else 0) * T :=
        mul_le_mul_of_nonneg_left hle (by split <;> norm_num)
      linarith
  · rw [objective_eval M _ hspan, objective_eval M _ hspan, hnew Column.cost hkc, hold Column.cost hkc]
    have h1 : c.cost * T' ≤ c.cost * T := mul_le_mul_of_nonneg_left hle hcost
    have h2 : ((List.range M.numVehicles.length).map (fun k => Master.big * p' (.bound k))).sum ≤
        ((List.range M.numVehicles.length).map (fun k => Master.big * p (.bound k))).sum :=
      List.sum_le_sum (fun k _ => mul_le_mul_of_nonneg_left (hble k) (by norm_num [Master.big]))
    simp only [hother.1, hother.2]
    linarith

/-- A new column need not be used. -/
theorem value_with {M : Master} {cols : List Column} {c : Column} (hspan : M.globalSpan = false)
    (hname : c.name ∉ cols.map Column.name) {p : MVar → ℚ} (hp : (M.lp cols true).Feasible p) :
    ∃ p', (M.lp (cols ++ [c]) true).Feasible p' ∧ (M.lp (cols ++ [c]) true).obj.eval p' ≤ (M.lp cols true).obj.eval p := by
  obtain ⟨hy, hdrop, hdummy, hbound⟩ := (lp_vars hspan).1 hp.vars
  obtain ⟨hvisit, hfleet⟩ := (lp_constrs hspan).1 hp.constrs
  let p' : MVar → ℚ := fun x => if x = .y c.name then 0 else p x
  have hc : p' (.y c.name) = 0 := if_pos rfl
  have hpc : ∀ c' ∈ cols, p' (.y c'.name) = p (.y c'.name) := by
    intro c' hc'
    refine if_neg (fun h => hname ?_)
    rw [← MVar.y.inj h]
    exact List.mem_map_of_mem hc'
  have hsum : ∀ f : Column → ℚ, ((cols ++ [c]).map (fun c' => f c' * p' (.y c'.name))).sum =
      (cols.map (fun c' => f c' * p (.y c'.name))).sum := by
    intro f
    rw [List.map_append, List.sum_append]
    simp only [List.map_cons, List.map_nil, List.sum_cons, List.sum_nil, hc, mul_zero, add_zero]
    refine congrArg _ (List.map_congr_left (fun c' hc' => ?_))
    rw [hpc c' hc']
  have hd : (∀ v, p' (.drop v) = p (.drop v)) ∧ (∀ v, p' (.dummy v) = p (.dummy v)) ∧ ∀ k, p' (.bound k) = p (.bound k) :=
    ⟨fun _ => if_neg (fun h => by cases h), fun _ => if_neg (fun h => by cases h), fun _ => if_neg (fun h => by cases h)⟩
  refine ⟨p', ⟨(lp_vars hspan).2 ⟨?_, ?_, ?_, ?_⟩, (lp_constrs hspan).2 ⟨?_, ?_⟩⟩, ?_⟩
  · intro c' hc'
    rcases List.mem_append.1 hc' with h | h
    · rw [hpc c' h]
      exact hy c' h
    · simp only [List.mem_singleton] at h
      subst h
      rw [hc]
      norm_num
  · intro v hv
    rw [hd.1]
    exact hdrop v hv
  · intro v hv
    rw [hd.2.1]
    exact hdummy v hv
  · intro k hk
    rw [hd.2.2]
    exact hbound k hk
  · intro v hv
    have h1 := hvisit v hv
    have e1 := visit_eval M cols hspan p v
    have e2 := visit_eval M (cols ++ [c]) hspan p' v
    have he : ∀ a b : Prop, ∀ [Decidable a] [Decidable b],
        LinExpr.eval (if a then [((1 : ℚ), MVar.drop v)] else []) p' + LinExpr.eval (if b then [((1 : ℚ), MVar.dummy v)] else []) p' =
        LinExpr.eval (if a then [((1 : ℚ), MVar.drop v)] else []) p + LinExpr.eval (if b then [((1 : ℚ), MVar.dummy v)] else []) p := by
      intro a b _ _
      split <;> split <;> simp [hd.1, hd.2.1]
    rw [he, hsum, ← e1] at e2
    have hs1 : (M.visitConstr (cols ++ [c]) true v).sense = (M.visitConstr cols true v).sense := rfl
    have hr : (M.visitConstr (cols ++ [c]) true v).rhs = (M.visitConstr cols true v).rhs := rfl
    unfold Constr.Holds at h1 ⊢
    rw [hs1, hr, e2]
    exact h1
  · intro hper k n hn
    have h1 := hfleet hper k n hn
    have e1 := fleet_eval M cols p k n
    have e2 := fleet_eval M (cols ++ [c]) p' k n
    rw [hsum, hd.2.2, ← e1] at e2
    have hs1 : (M.fleetConstr (cols ++ [c]) k n).sense = (M.fleetConstr cols k n).sense := rfl
    have hr : (M.fleetConstr (cols ++ [c]) k n).rhs = (M.fleetConstr cols k n).rhs := rfl
    unfold Constr.Holds at h1 ⊢
    rw [hs1, hr, e2]
    exact h1
  · rw [objective_eval M _ hspan, objective_eval M _ hspan, hsum]
    simp only [hd.1, hd.2.1, hd.2.2]
    exact le_refl _

/-- Several columns that are in the pool often enough. -/
theorem value_append {M : Master} {cols : List Column} (hspan : M.globalSpan = false) : ∀ new : List Column,
    ((cols ++ new).map Column.name).Nodup → (∀ c ∈ new, 0 ≤ c.cost ∧ M.copies ≤ cols.countP (fun c' => c'.key = c.key)) →
    (∀ p, (M.lp (cols ++ new) true).Feasible p →
      ∃ p', (M.lp cols true).Feasible p' ∧ (M.lp cols true).obj.eval p' ≤ (M.lp (cols ++ new) true).obj.eval p) ∧
    (∀ p, (M.lp cols true).Feasible p →
      ∃ p', (M.lp (cols ++ new) true).Feasible p' ∧ (M.lp (cols ++ new) true).obj.eval p' ≤ (M.lp cols true).obj.eval p) := by
  intro new
  induction new using List.reverseRecOn with
  | nil =>
    intro _ _
    rw [List.append_nil]
    exact ⟨fun p hp => ⟨p, hp, le_refl _⟩, fun p hp => ⟨p, hp, le_refl _⟩⟩
  | append_singleton new c ih =>
    intro hn hnew
    rw [← List.append_assoc] at hn ⊢
    have hn' := hn
    rw [List.map_append, List.nodup_append] at hn'
    obtain ⟨i1, i2⟩ := ih hn'.1 (fun c' hc' => hnew c' (List.mem_append_left _ hc'))
    obtain ⟨h0, hm⟩ := hnew c (by simp)
    constructor
    · intro p hp
      obtain ⟨q, hq, hle⟩ := value_without hspan hn'.1 h0
        (le_trans hm (by rw [List.countP_append]; exact Nat.le_add_right _ _)) hp
      obtain ⟨q', hq', hle'⟩ := i1 q hq
      exact ⟨q', hq', le_trans hle' hle⟩
    · intro p hp
      obtain ⟨q, hq, hle⟩ := i2 p hp
      obtain ⟨q', hq', hle'⟩ := value_with (c := c) hspan
        (fun h => hn'.2.2 _ h c.name (by simp) rfl) hq
      exact ⟨q', hq', le_trans hle' hle⟩

/-- So the value of the relaxed problem does not change. -/
theorem value_same {M : Master} {cols new : List Column} (hspan : M.globalSpan = false)
    (hn : ((cols ++ new).map Column.name).Nodup)
    (hnew : ∀ c ∈ new, 0 ≤ c.cost ∧ M.copies ≤ cols.countP (fun c' => c'.key = c.key)) {p q : MVar → ℚ}
    (hp : (M.lp cols true).Optimal p) (hq : (M.lp (cols ++ new) true).Optimal q) :
    (M.lp (cols ++ new) true).obj.eval q = (M.lp cols true).obj.eval p := by
  obtain ⟨h1, h2⟩ := value_append hspan new hn hnew
  obtain ⟨p', hp', hle⟩ := h1 q hq.feasible
  obtain ⟨q', hq', hle'⟩ := h2 p hp.feasible
  exact le_antisymm (le_trans (hq.best q' hq') hle') (le_trans (hp.best p' hp') hle)

end Vrpy
