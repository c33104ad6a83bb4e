import Verif.Model.HyperRel
import Verif.Proofs.Py
import Mathlib.Tactic.Linarith
import Mathlib.Tactic.Positivity
import Mathlib.Tactic.FieldSimp
import Mathlib.Tactic.Ring

/-!
# C81: the hyper-heuristic with the measure `"relative_improvement"`
-/

namespace Vrpy

namespace Rel

/-- Histories of calls of the methods, in any order; the calls of `update_parameters` in the order of the list have these
iteration numbers, and `T` holds for the measured runtimes. -/
inductive Calls (start : Nat) (scaling : ℚ) (T : ℚ → Prop) : List Nat → Rel → Prop
  | start : Calls start scaling T [] { start := start, scaling := scaling }
  | init {l s} (c : ℚ) : Calls start scaling T l s → Calls start scaling T l (s.init c)
  | touch {l s} : Calls start scaling T l s → Calls start scaling T l { s with base := { s.base with timed := true } }
  | performance {l s s' c obj p} : Calls start scaling T l s → T c.runtime → s.performance c obj p = .ok s' →
      Calls start scaling T l s'
  | parameters {l s s' c it} : Calls start scaling T l s → s.updateParameters c it = .ok s' →
      Calls start scaling T (l ++ [it]) s'
  | pick {l s h s'} (i : Nat) : Calls start scaling T l s → s.pick i = .ok (h, s') → Calls start scaling T l s'

theorem relimp_ok {s s' : Rel} {x : ℚ} (h : s.relimp x = .ok s') :
    ∃ it, s.iteration = some it ∧
      ((it ≤ s.start + 1 ∧ s' = s) ∨
        ∃ a, it > s.start + 1 ∧ s.average = some a ∧ a ≠ 0 ∧
          ((improvement a x > s.dMax ∧ s' = { s with d := improvement a x, dMax := improvement a x }) ∨
            (improvement a x ≤ s.dMax ∧ s' = { s with d := 0 }))) := by
  unfold relimp at h
  cases hi : s.iteration with
  | none => simp only [hi] at h; cases h
  | some it =>
    simp only [hi] at h
    refine ⟨it, rfl, ?_⟩
    by_cases hg : it > s.start + 1
    · simp only [if_pos hg] at h
      cases ha : s.average with
      | none => simp only [ha] at h; cases h
      | some a =>
        simp only [ha] at h
        by_cases h0 : a = 0
        · simp only [if_pos h0] at h; cases h
        · simp only [if_neg h0] at h
          refine Or.inr ⟨a, hg, rfl, h0, ?_⟩
          by_cases hd : improvement a x > s.dMax
          · simp only [if_pos hd, Except.ok.injEq] at h
            exact Or.inl ⟨hd, h.symm⟩
          · simp only [if_neg hd, Except.ok.injEq] at h
            exact Or.inr ⟨not_lt.1 hd, h.symm⟩
    · simp only [if_neg hg, Except.ok.injEq] at h
      exact Or.inl ⟨not_lt.1 hg, h.symm⟩

/-- What `current_performance` leaves alone, and what it sets. -/
structure Performed (s s' : Rel) (h : Heur) (x : ℚ) : Prop where
  start : s'.start = s.start
  scaling : s'.scaling = s.scaling
  iteration : s'.iteration = s.iteration
  set : s.iteration ≠ none
  average : s'.average = s.average
  last : s'.last = some x
  q : s'.q = s.q
  r : s'.r = s.r
  points : s'.base.points = s.base.points
  current : s'.base.current = some h
  credited : ∀ y, s'.base.iterations y = s.base.iterations y + if y = h then 1 else 0
  improved : (s'.d = s.d ∧ s'.dMax = s.dMax) ∨ (s'.d = 0 ∧ s'.dMax = s.dMax) ∨
    ∃ a, s.average = some a ∧ s'.d = improvement a x ∧ s'.dMax = improvement a x ∧ s.dMax < improvement a x

theorem performance_ok {s s' : Rel} {c : Hyper.Clock} {obj : ℚ} {p : Bool} (hs : s.performance c obj p = .ok s') :
    ∃ h, s.base.current = some h ∧ Performed s s' h c.runtime := by
  unfold performance at hs
  by_cases ht : (!s.base.timed) = true
  · simp only [if_pos ht] at hs; cases hs
  simp only [if_neg ht] at hs
  cases hc : s.base.current with
  | none => simp only [hc] at hs; cases hs
  | some h =>
    cases ho : s.base.objective with
    | none => simp only [hc, ho] at hs; cases hs
    | some old =>
      simp only [hc, ho] at hs
      split at hs
      · cases hs
      · rename_i t hr
        simp only [Except.ok.injEq] at hs
        obtain ⟨it, hi, hcase⟩ := relimp_ok hr
        refine ⟨h, rfl, ?_⟩
        simp only at hi
        have hu : ∀ y, updateAt s.base.iterations h (s.base.iterations h + 1) y = s.base.iterations y + if y = h then 1 else 0 := by
          intro y
          unfold updateAt
          by_cases hy : y = h
          · simp [hy]
          · simp [hy]
        rcases hcase with ⟨_, rfl⟩ | ⟨a, _, ha, _, ⟨hd, rfl⟩ | ⟨_, rfl⟩⟩
        · subst hs
          exact ⟨rfl, rfl, rfl, by simp [hi], rfl, rfl, rfl, rfl, rfl, rfl, hu, Or.inl ⟨rfl, rfl⟩⟩
        · subst hs
          exact ⟨rfl, rfl, rfl, by simp [hi], rfl, rfl, rfl, rfl, rfl, rfl, hu, Or.inr (Or.inr ⟨a, ha, rfl, rfl, hd⟩)⟩
        · subst hs
          exact ⟨rfl, rfl, rfl, by simp [hi], rfl, rfl, rfl, rfl, rfl, rfl, hu, Or.inr (Or.inl ⟨rfl, rfl⟩)⟩

theorem newPoints_ok {s s' : Rel} {c : Hyper.Clock} (hs : s.newPoints c = .ok s') :
    ∃ h rew, s.base.current = some h ∧ 0 < s.base.iterations h ∧
      (∃ st, rew = s.reward s.d st) ∧
      s'.start = s.start ∧ s'.scaling = s.scaling ∧ s'.iteration = s.iteration ∧ s'.average = s.average ∧ s'.last = s.last ∧
      s'.d = s.d ∧ s'.dMax = s.dMax ∧
      s'.base.current = s.base.current ∧ s'.base.iterations = s.base.iterations ∧
      s'.r h = s.r h * ((s.base.iterations h : ℚ) - 1) / s.base.iterations h + 1 / s.base.iterations h * rew ∧
      s'.q h = (s.q h + s'.r h) / s.base.iterations h ∧
      (∀ x, x ≠ h → s'.r x = s.r x ∧ s'.q x = s.q x) := by
  unfold newPoints at hs
  cases hc : s.base.current with
  | none => simp only [hc] at hs; cases hs
  | some h =>
    simp only [hc] at hs
    by_cases h0 : s.base.iterations h = 0
    · simp only [if_pos h0] at hs; cases hs
    · simp only [if_neg h0, Except.ok.injEq] at hs
      subst hs
      refine ⟨h, s.reward s.d (decide (s.q h = 0) && decide (s.base.iterations h - 1 > 3)), rfl, Nat.pos_of_ne_zero h0, ⟨_, rfl⟩, rfl, rfl, rfl, rfl, rfl, rfl, rfl, rfl, rfl, ?_, ?_, ?_⟩
      · simp [updateAt]
      · simp [updateAt]
      · intro x hx
        simp [updateAt, hx]

theorem updateParameters_ok {s s' : Rel} {c : Hyper.Clock} {it : Nat} (hs : s.updateParameters c it = .ok s') :
    (it ≤ s.start ∧ s' = { s with iteration := some it, base := { s.base with theta := s.base.newTheta } }) ∨
    ∃ a, s.start < it ∧ s.newAverage it = .ok a ∧
      newPoints { s with iteration := some it, average := a, base := { s.base with theta := s.base.newTheta } } c = .ok s' := by
  unfold updateParameters at hs
  simp only at hs
  by_cases hi : it ≤ s.start
  · simp only [if_pos hi, Except.ok.injEq] at hs
    exact Or.inl ⟨hi, hs.symm⟩
  · simp only [if_neg hi] at hs
    cases ha : newAverage { s with iteration := some it, base := { s.base with theta := s.base.newTheta } } it with
    | error e => simp only [ha] at hs; cases hs
    | ok a =>
      simp only [ha] at hs
      exact Or.inr ⟨a, not_le.1 hi, ha, hs⟩

theorem pick_ok {s s' : Rel} {i : Nat} {h : Heur} (hs : s.pick i = .ok (h, s')) :
    s.iteration ≠ none ∧ ∃ b : Hyper, s' = { s with base := b } ∧ b.iterations = s.base.iterations ∧
      (∀ it, s.iteration = some it → it < s.start → (h = .bestPaths ∨ h = .bestEdges1) ∧ b = s.base) ∧
      (∀ it, s.iteration = some it → s.start ≤ it → h = (s.base.pick i).1 ∧ b.current = some h) := by
  unfold pick at hs
  cases hi : s.iteration with
  | none => simp only [hi] at hs; cases hs
  | some it =>
    simp only [hi] at hs
    by_cases hlt : it < s.start
    · simp only [if_pos hlt, Except.ok.injEq, Prod.mk.injEq] at hs
      obtain ⟨rfl, rfl⟩ := hs
      refine ⟨by simp, s.base, by rw [← hi], rfl, ?_, ?_⟩
      · intro it' _ _
        refine ⟨?_, rfl⟩
        by_cases hp : i % 2 = 0
        · simp [hp]
        · simp [hp]
      · intro it' h' hle
        simp only [Option.some.injEq] at h'
        omega
    · simp only [if_neg hlt, Except.ok.injEq, Prod.mk.injEq] at hs
      obtain ⟨rfl, rfl⟩ := hs
      refine ⟨by simp, (s.base.pick i).2, by rw [← hi], rfl, ?_, ?_⟩
      · intro it' h' hlt'
        simp only [Option.some.injEq] at h'
        omega
      · intro it' _ _
        exact ⟨rfl, rfl⟩

variable {start : Nat} {scaling : ℚ} {T : ℚ → Prop}

/-- `iteration` is the number last passed to `update_parameters`. -/
theorem iteration_eq {l : List Nat} {s : Rel} (h : Calls start scaling T l s) : s.iteration = l.getLast? ∧ s.start = start := by
  induction h with
  | start => exact ⟨rfl, rfl⟩
  | init c _ ih => exact ih
  | touch _ ih => exact ih
  | performance _ _ hp ih =>
    obtain ⟨_, _, hP⟩ := performance_ok hp
    exact ⟨hP.iteration.trans ih.1, hP.start.trans ih.2⟩
  | parameters _ hp ih =>
    rcases updateParameters_ok hp with ⟨_, rfl⟩ | ⟨a, _, _, hn⟩
    · exact ⟨by simp, ih.2⟩
    · obtain ⟨_, _, _, _, _, hst, _, hit, _⟩ := newPoints_ok hn
      exact ⟨by rw [hit]; simp, hst.trans ih.2⟩
  | pick i _ hp ih =>
    obtain ⟨_, b, rfl, _⟩ := pick_ok hp
    exact ih

/-- **C81, the first use.**  With this measure the hyper-heuristic cannot be used the way `vrpy` uses it: as long as `update_parameters` was not called, `iteration`
is `None`, and then `current_performance` raises a `TypeError` — so `_update_hyper_heuristic`, which calls it first, never comes to `update_parameters`.
Also `pick_heuristic` raises a `TypeError`. -/
theorem C81_first_update_counterexample {s : Rel} (h : Calls start scaling T [] s) (c : Hyper.Clock) (obj : ℚ) (p : Bool) (it i : Nat) :
    (∃ e, s.update c obj p it = .error e) ∧
    (∀ cost, (s.init cost).update c obj p it = .error .typeError) ∧ s.pick i = .error .typeError := by
  have hi : s.iteration = none := (iteration_eq h).1
  refine ⟨?_, ?_, ?_⟩
  · cases hu : s.update c obj p it with
    | error e => exact ⟨e, rfl⟩
    | ok t =>
      exfalso
      unfold update at hu
      cases hp : s.performance c obj p with
      | error e => simp only [hp] at hu; cases hu
      | ok t =>
        obtain ⟨_, _, hP⟩ := performance_ok hp
        exact hP.set hi
  · intro cost
    simp [update, performance, init, Hyper.init, relimp, hi]
  · simp [pick, hi]

/-- The numbers `k`, `k + 1`, …: the calls count the iterations. -/
def Counting (l : List Nat) : Prop := ∀ i, i + 1 < l.length → l[i + 1]! = l[i]! + 1

theorem average_none {l : List Nat} {s : Rel} (h : Calls start scaling T l s) (hl : ∀ it ∈ l, it ≤ start) : s.average = none := by
  induction h with
  | start => rfl
  | init c _ ih => exact ih hl
  | touch _ ih => exact ih hl
  | performance _ _ hp ih =>
    obtain ⟨_, _, hP⟩ := performance_ok hp
    exact hP.average.trans (ih hl)
  | @parameters l s s' c it hc hp ih =>
    have h' := ih (fun it hit => hl it (List.mem_append_left _ hit))
    rcases updateParameters_ok hp with ⟨_, rfl⟩ | ⟨a, hlt, _⟩
    · exact h'
    · have := hl it (by simp)
      rw [(iteration_eq hc).2] at hlt
      omega
  | pick i _ hp ih =>
    obtain ⟨_, b, rfl, _⟩ := pick_ok hp
    exact ih hl

/-- **C81, counting on.**  Also if `iteration` is set beforehand: when the numbers passed to `update_parameters` count up from a number that is not larger
than `start_computing_average`, then the call with `start_computing_average + 1` raises a `TypeError`, because `average_runtime` is still `None`.  No such history
gets past `start_computing_average`. -/
theorem C81_average_counterexample {l : List Nat} {s : Rel} (h : Calls start scaling T l s) (hcount : Counting l)
    (hfirst : ∀ k ∈ l.head?, k ≤ start) :
    (∀ it ∈ l, it ≤ start) ∧ ∀ c, s.updateParameters c (start + 1) = .error .typeError := by
  have key : ∀ {l : List Nat} {s : Rel}, Calls start scaling T l s → (∀ it ∈ l, it ≤ start) →
      ∀ c, s.updateParameters c (start + 1) = .error .typeError := by
    intro l s h hl c
    have ha := average_none h hl
    have hs := (iteration_eq h).2
    unfold updateParameters
    simp only [hs, if_neg (Nat.not_succ_le_self start), newAverage]
    rw [show start + 1 - start = 1 by omega]
    simp [ha]
  have hall : ∀ it ∈ l, it ≤ start := by
    induction h with
    | start => simp
    | init c _ ih => exact ih hcount hfirst
    | touch _ ih => exact ih hcount hfirst
    | performance _ _ _ ih => exact ih hcount hfirst
    | pick i _ _ ih => exact ih hcount hfirst
    | @parameters l s s' c it hc hp ih =>
      have hcl : Counting l := by
        intro i hi
        have := hcount i (by simp; omega)
        rw [getElem!_pos (l ++ [it]) (i + 1) (by simp; omega), getElem!_pos (l ++ [it]) i (by simp; omega),
          List.getElem_append_left hi, List.getElem_append_left (by omega)] at this
        rw [getElem!_pos l (i + 1) hi, getElem!_pos l i (by omega)]
        exact this
      have hfl : ∀ k ∈ l.head?, k ≤ start := by
        intro k hk
        apply hfirst
        cases l with
        | nil => simp at hk
        | cons a l => simpa using hk
      have hl := ih hcl hfl
      intro x hx
      rcases List.mem_append.1 hx with hx | hx
      · exact hl x hx
      · obtain rfl : x = it := by simpa using hx
        cases l using List.reverseRecOn with
        | nil => exact hfirst x (by simp)
        | append_singleton m k _ =>
          have hk : k ≤ start := hl k (by simp)
          have hn := hcount m.length (by simp)
          rw [getElem!_pos _ _ (by simp), getElem!_pos _ _ (by simp)] at hn
          simp at hn
          by_contra hgt
          have : x = start + 1 := by omega
          subst this
          rw [key hc hl c] at hp
          cases hp
  exact ⟨hall, key h hall⟩

/-- What holds of the improvements and the qualities. -/
structure Sound (s : Rel) : Prop where
  d_nonneg : 0 ≤ s.d
  d_le : s.d ≤ s.dMax
  d_or : s.d = 0 ∨ s.d = s.dMax
  max_le : s.dMax ≤ 100
  last : ∀ x, s.last = some x → 0 ≤ x
  average : ∀ x, s.average = some x → 0 ≤ x
  r_nonneg : ∀ h, 0 ≤ s.r h
  r_le : ∀ h, s.r h ≤ 150
  q_nonneg : ∀ h, 0 ≤ s.q h

theorem improvement_le {a x : ℚ} (ha : 0 ≤ a) (hx : 0 ≤ x) : improvement a x ≤ 100 := by
  unfold improvement
  apply max_le _ (by norm_num)
  rcases eq_or_lt_of_le ha with h0 | h0
  · simp [← h0]
  · have : (a - x) / a ≤ 1 := by
      rw [div_le_one h0]
      linarith
    linarith

theorem reward_bounds {s : Rel} (hs : s.Sound) (st : Bool) : 0 ≤ s.reward s.d st ∧ s.reward s.d st ≤ 150 := by
  have h0 := hs.d_nonneg
  have h1 := hs.d_le
  have h2 := hs.max_le
  have hx : 0 ≤ (if st = true then min (1 / 10 * s.dMax) s.d else s.d) ∧ (if st = true then min (1 / 10 * s.dMax) s.d else s.d) ≤ 100 := by
    by_cases hst : st = true
    · simp only [if_pos hst]
      exact ⟨le_min (by linarith) h0, le_trans (min_le_right _ _) (by linarith)⟩
    · simp only [if_neg hst]
      exact ⟨h0, by linarith⟩
  unfold reward
  generalize (if st = true then min (1 / 10 * s.dMax) s.d else s.d) = x at hx
  simp only
  split_ifs <;> constructor <;> nlinarith [hx.1, hx.2]

/-- How many good effects the last heuristic had: the objective value decreased, a column was found. -/
def effects (s : Rel) : Nat := s.base.decreased.toNat + s.base.produced.toNat

/-- **C81, rewards.**  For an improvement `y > 0` the reward depends only on the number of good effects, and more of them yield
more; it is less than the improvement without any effect, and more with some.  A heuristic that has stagnated gets no
more than one that has not, and at most 15 % of the largest improvement.  No improvement, no reward. -/
theorem C81_reward {s s' : Rel} {y : ℚ} (hy : 0 < y) (hmax : 0 < s.dMax) (hsame : s'.dMax = s.dMax) (st : Bool) :
    (s.effects < s'.effects → s.reward y st < s'.reward y st) ∧
    (s.effects = s'.effects → s.reward y st = s'.reward y st) ∧
    (s.effects = 0 → s.reward y false < y) ∧
    (0 < s.effects → y < s.reward y false) ∧
    s.reward y true ≤ s.reward y false ∧ s.reward y true ≤ 15 / 100 * s.dMax ∧
    s.reward 0 st = 0 := by
  have hm : 0 < min (1 / 10 * s.dMax) y := lt_min (by positivity) hy
  have h1 := min_le_left (1 / 10 * s.dMax) y
  have h2 := min_le_right (1 / 10 * s.dMax) y
  have hy' : ¬ y ≤ 0 := not_le.2 hy
  have h0 : min (1 / 10 * s.dMax) 0 = 0 := min_eq_right (by positivity)
  unfold effects reward
  rw [hsame]
  generalize hw : min (1 / 10 * s.dMax) y = x at *
  cases s.base.decreased <;> cases s.base.produced <;> cases s'.base.decreased <;> cases s'.base.produced <;> cases st <;>
    refine ⟨fun h => ?_, fun h => ?_, fun h => ?_, fun h => ?_, ?_, ?_, ?_⟩ <;>
    (try simp only [Bool.toNat_true, Bool.toNat_false] at h) <;> (try simp only [hy, hy', h0]) <;>
    first | omega | (simp; done) | (simp; linarith)

/-- The rewards for the improvement 10, the largest so far: 9, 12 and 15; for a heuristic that has stagnated a tenth of it. -/
example : let s := fun b c => ({ d := 10, dMax := 10, base := { decreased := b, produced := c } } : Rel)
    [(s false false).reward 10 false, (s true false).reward 10 false, (s false true).reward 10 false,
      (s true true).reward 10 false, (s true true).reward 10 true] = [9, 12, 12, 15, 3 / 2] := by decide +kernel

/-- **C81, bounds.**  In every history in which no runtime is negative: the improvement `d` is 0 or the largest improvement so far, that one is at most 100, and the
averages `r` of the rewards lie between 0 and 150; the qualities are not negative. -/
theorem C81_bounds_partial {l : List Nat} {s : Rel} (h : Calls start scaling (fun x => 0 ≤ x) l s) : s.Sound := by
  induction h with
  | start =>
    constructor <;> intros <;> first | exact le_refl _ | exact Or.inl rfl | simp at *
  | init c _ ih => exact ⟨ih.1, ih.2, ih.3, ih.4, ih.5, ih.6, ih.7, ih.8, ih.9⟩
  | touch _ ih => exact ⟨ih.1, ih.2, ih.3, ih.4, ih.5, ih.6, ih.7, ih.8, ih.9⟩
  | @performance l s s' c obj p _ hx hp ih =>
    obtain ⟨_, _, hP⟩ := performance_ok hp
    have hlast : ∀ x, s'.last = some x → 0 ≤ x := by
      intro x h'
      rw [hP.last] at h'
      obtain rfl := Option.some.inj h'
      exact hx
    have have_ : ∀ x, s'.average = some x → 0 ≤ x := by
      rw [hP.average]
      exact ih.average
    rcases hP.improved with ⟨h1, h2⟩ | ⟨h1, h2⟩ | ⟨a, ha, h1, h2, h3⟩
    · exact ⟨by rw [h1]; exact ih.1, by rw [h1, h2]; exact ih.2, by rw [h1, h2]; exact ih.3, by rw [h2]; exact ih.4,
        hlast, have_, by rw [hP.r]; exact ih.7, by rw [hP.r]; exact ih.8, by rw [hP.q]; exact ih.9⟩
    · exact ⟨by rw [h1], by rw [h1, h2]; exact le_trans ih.1 ih.2, Or.inl h1, by rw [h2]; exact ih.4,
        hlast, have_, by rw [hP.r]; exact ih.7, by rw [hP.r]; exact ih.8, by rw [hP.q]; exact ih.9⟩
    · exact ⟨by rw [h1]; exact le_max_right _ _, by rw [h1, h2], Or.inr (h1.trans h2.symm), by rw [h2]; exact improvement_le (ih.average a ha) hx,
        hlast, have_, by rw [hP.r]; exact ih.7, by rw [hP.r]; exact ih.8, by rw [hP.q]; exact ih.9⟩
  | @parameters l s s' c it hc hp ih =>
    rcases updateParameters_ok hp with ⟨_, rfl⟩ | ⟨a, hlt, ha, hn⟩
    · exact ⟨ih.1, ih.2, ih.3, ih.4, ih.5, ih.6, ih.7, ih.8, ih.9⟩
    · have hav : ∀ x, a = some x → 0 ≤ x := by
        intro x hx
        subst hx
        unfold newAverage at ha
        simp only at ha
        by_cases h0 : (it - s.start) % 10 = 0
        · simp only [if_pos h0, Except.ok.injEq] at ha
          exact ih.last x ha
        · simp only [if_neg h0] at ha
          cases h1 : s.average with
          | none => simp only [h1] at ha; cases ha
          | some b =>
            cases h2 : s.last with
            | none => simp only [h1, h2] at ha; cases ha
            | some y =>
              simp only [h1, h2, Except.ok.injEq, Option.some.injEq] at ha
              have hb := ih.average b h1
              have hy := ih.last y h2
              have hn1 : (1 : ℚ) ≤ (((it - s.start) % 10 : ℕ) : ℚ) := by
                exact_mod_cast Nat.pos_of_ne_zero h0
              rw [← ha]
              have : 0 ≤ b * ((((it - s.start) % 10 : ℕ) : ℚ) - 1) := mul_nonneg hb (by linarith)
              positivity
      set t : Rel := { s with iteration := some it, average := a, base := { s.base with theta := s.base.newTheta } } with ht
      have hst : t.Sound := ⟨ih.1, ih.2, ih.3, ih.4, ih.5, hav, ih.7, ih.8, ih.9⟩
      obtain ⟨h, rew, _, hpos, ⟨st, hrew⟩, _, _, _, hA, hL, hD, hM, _, _, hr, hq, hother⟩ := newPoints_ok hn
      have hb := reward_bounds hst st
      rw [← hrew] at hb
      have hn1 : (1 : ℚ) ≤ (t.base.iterations h : ℚ) := by exact_mod_cast hpos
      have hr0 := hst.r_nonneg h
      have hr1 := hst.r_le h
      have hrr : 0 ≤ s'.r h ∧ s'.r h ≤ 150 := by
        rw [hr]
        constructor
        · have : 0 ≤ t.r h * ((t.base.iterations h : ℚ) - 1) := mul_nonneg hr0 (by linarith)
          have := hb.1
          positivity
        · rw [div_add' _ _ _ (by positivity), div_le_iff₀ (by positivity)]
          have : 1 / (t.base.iterations h : ℚ) * rew * t.base.iterations h = rew := by field_simp
          rw [this]
          nlinarith [hb.2]
      refine ⟨by rw [hD]; exact hst.1, by rw [hD, hM]; exact hst.2, by rw [hD, hM]; exact hst.3, by rw [hM]; exact hst.4,
        by rw [hL]; exact hst.5, by rw [hA]; exact hst.6, ?_, ?_, ?_⟩
      · intro x
        by_cases hx : x = h
        · rw [hx]; exact hrr.1
        · rw [(hother x hx).1]; exact hst.r_nonneg x
      · intro x
        by_cases hx : x = h
        · rw [hx]; exact hrr.2
        · rw [(hother x hx).1]; exact hst.r_le x
      · intro x
        by_cases hx : x = h
        · rw [hx, hq]
          have := hst.q_nonneg h
          have := hrr.1
          positivity
        · rw [(hother x hx).2]; exact hst.q_nonneg x
  | pick i _ hp ih =>
    obtain ⟨_, b, rfl, _⟩ := pick_ok hp
    exact ⟨ih.1, ih.2, ih.3, ih.4, ih.5, ih.6, ih.7, ih.8, ih.9⟩

/-- A stretch of iterations `start + 10 k + 1`, `start + 10 k + 2`, … with the measured runtimes `l`; it begins in a state that has some average. -/
inductive Block (k : Nat) : List ℚ → Rel → Prop
  | start {s a} : s.average = some a → Block k [] s
  | update {l s s' c obj p} : Block k l s → s.update c obj p (s.start + 10 * k + l.length + 1) = .ok s' → Block k (l ++ [c.runtime]) s'
  | pick {l s h s'} (i : Nat) : Block k l s → s.pick i = .ok (h, s') → Block k l s'

/-- **C81, the average.**  Where the updates do not fail, `average_runtime` is the mean of the runtimes of the current stretch of at most nine iterations. -/
theorem C81_mean_partial {k : Nat} {l : List ℚ} {s : Rel} (h : Block k l s) (hlen : l.length ≤ 9) :
    (l = [] → s.average ≠ none) ∧ (l ≠ [] → s.average = some (l.sum / l.length)) := by
  induction h with
  | start ha => exact ⟨fun _ => by rw [ha]; simp, fun h => absurd rfl h⟩
  | pick i _ hp ih =>
    obtain ⟨_, b, rfl, _⟩ := pick_ok hp
    exact ih hlen
  | @update l s s' c obj p hb hu ih =>
    refine ⟨fun h => absurd h (by simp), fun _ => ?_⟩
    have hlen' : l.length ≤ 8 := by simpa using hlen
    have ih := ih (by omega)
    unfold update at hu
    cases hp : s.performance c obj p with
    | error e => simp only [hp] at hu; cases hu
    | ok t =>
      simp only [hp] at hu
      obtain ⟨_, _, hP⟩ := performance_ok hp
      rcases updateParameters_ok hu with ⟨hle, _⟩ | ⟨a, _, ha, hn⟩
      · rw [hP.start] at hle
        omega
      · obtain ⟨_, _, _, _, _, _, _, _, hA, _⟩ := newPoints_ok hn
        rw [hA]
        simp only
        unfold newAverage at ha
        rw [hP.start, show s.start + 10 * k + l.length + 1 - s.start = (l.length + 1) + 10 * k by omega,
          Nat.add_mul_mod_self_left, Nat.mod_eq_of_lt (by omega)] at ha
        simp only [if_neg (Nat.succ_ne_zero _), hP.average, hP.last] at ha
        cases hav : s.average with
        | none => simp only [hav] at ha; cases ha
        | some b =>
          simp only [hav, Except.ok.injEq] at ha
          rw [← ha]
          by_cases hl : l = []
          · subst hl
            simp
          · have hb' := ih.2 hl
            rw [hav] at hb'
            obtain rfl := Option.some.inj hb'
            have hl0 : (l.length : ℚ) ≠ 0 := by
              exact_mod_cast (List.length_pos_of_ne_nil hl).ne'
            have hl1 : (l.length : ℚ) + 1 ≠ 0 := by positivity
            congr 1
            simp only [List.length_append, List.length_singleton, List.sum_append, List.sum_singleton]
            push_cast
            field_simp
            ring

/-- **C81, acceptance.**  The acceptance type `"objective_threshold"` accepts every move, like `"accept_all"` and the default: `d` is not negative, so `exp(d)` is at
least 1, and the random number is below 1.  The type `"table"` accepts every move that improves the objective, and every move if the random number is below a half. -/
theorem C81_acceptance {l : List Nat} {s : Rel} (h : Calls start scaling (fun x => 0 ≤ x) l s) {e : ℚ → ℚ} (he : ∀ x, 0 ≤ x → 1 ≤ e x)
    {u : ℚ} (hu : u < 1) :
    (∀ t, t ≠ .table → moveAcceptance t e u s = true) ∧
    (s.base.decreased = true ∨ u < 1 / 2 → moveAcceptance .table e u s = true) ∧
    (s.base.decreased = false → 1 / 2 * e s.d ≤ u → moveAcceptance .table e u s = false) := by
  have hd := he _ (C81_bounds_partial h).d_nonneg
  refine ⟨?_, ?_, ?_⟩
  · intro t ht
    cases t with
    | acceptAll => rfl
    | table => exact absurd rfl ht
    | objectiveThreshold =>
      simp only [moveAcceptance]
      by_cases hdec : s.base.decreased = true
      · simp [hdec]
      · simp only [if_neg hdec, decide_eq_true_eq]
        linarith
    | other => rfl
  · intro hor
    simp only [moveAcceptance]
    by_cases hdec : s.base.decreased = true
    · simp [hdec]
    · simp only [if_neg hdec, decide_eq_true_eq]
      rcases hor with h' | h'
      · exact absurd h' hdec
      · linarith
  · intro hdec hle
    simp only [moveAcceptance, hdec, Bool.false_eq_true, if_false, decide_eq_false_iff_not, not_lt]
    exact hle

/-! ## A history -/

namespace Ex

/-- The clock of the example. -/
def clock (x : ℚ) : Hyper.Clock := ⟨x, fun _ _ => 1⟩

/-- The calls of the example: the caller sets the number of the iteration to 11 (`start_computing_average` is 1) after a first measurement — only a number
`1 + 10 k` gives an average — and then goes on. -/
def run : Py Rel :=
  match (({} : Rel).init 100).updateParameters (clock 4) 0 with
  | .error e => .error e
  | .ok s =>
    match s.update (clock 4) 100 true 11 with
    | .error e => .error e
    | .ok s =>
      match s.update (clock 2) 90 true 12 with
      | .error e => .error e
      | .ok s => s.update (clock 4) 90 true 13

/-- The attributes after the calls: the runtimes 2 and 4 of the new stretch have the mean 3, the second one was half of the average at that time. -/
example : run.toOption.map (fun s => (s.average, s.d, s.dMax, s.r .bestPaths)) = some (some 3, 0, 50, 25) := by
  decide +kernel

/-- The calls of the example with the numbers 0, 1, 2. -/
def count : Py Rel :=
  match (({} : Rel).init 100).updateParameters (clock 4) 0 with
  | .error e => .error e
  | .ok s =>
    match s.update (clock 4) 100 true 1 with
    | .error e => .error e
    | .ok s => s.update (clock 2) 90 true 2

/-- Counting from 0 fails at the second update. -/
example : count.map (fun s => s.d) = .error .typeError := by
  decide +kernel

end Ex

end Rel

end Vrpy
