import Verif.Model.Cspy
import Verif.Proofs.PricingVariants

/-!
# cspy pricing: what the resources are
-/

namespace Vrpy

open Spec

namespace Cspy

variable {q : Cspy}

theorem consume_append (q : Cspy) (a b : List Node) : ∀ (r : Res) (i : Node),
    q.consume r i (a ++ b) = q.consume (q.consume r i a) ((i :: a).getLast (by simp)) b := by
  induction a with
  | nil => intro r i; rfl
  | cons j a ih =>
    intro r i
    simp only [List.cons_append, consume]
    rw [ih]
    simp [List.getLast_cons]

/-- A statement about all prefixes, one step at a time. -/
theorem prefixes_cons (P : Res → Prop) (r : Res) (i j : Node) (rest : List Node) :
    (∀ p, p <+: j :: rest → P (q.consume r i p)) ↔ P r ∧ ∀ p, p <+: rest → P (q.consume (q.ref r i j) j p) := by
  constructor
  · intro h
    refine ⟨h [] (List.nil_prefix), fun p hp => h (j :: p) ?_⟩
    simpa using hp
  · rintro ⟨h1, h2⟩ p hp
    cases p with
    | nil => exact h1
    | cons x p =>
      rw [List.cons_prefix_cons] at hp
      obtain ⟨rfl, hp⟩ := hp
      exact h2 p hp

theorem prefixes_nil (P : Res → Prop) (r : Res) (i : Node) :
    (∀ p, p <+: [] → P (q.consume r i p)) ↔ P r := by
  constructor
  · intro h; exact h [] (List.nil_prefix)
  · intro h p hp
    rw [List.prefix_nil] at hp
    subst hp
    exact h

theorem consume_stops (rest : List Node) : ∀ (r : Res) (i : Node), (q.consume r i rest).stops = r.stops + rest.length := by
  induction rest with
  | nil => intro r i; simp [consume]
  | cons j rest ih =>
    intro r i
    have : (q.ref r i j).stops = r.stops + 1 := by
      unfold ref; split <;> rfl
    rw [consume, ih, this, List.length_cons]
    push_cast
    ring

/-- The load is counted. -/
def counts (q : Cspy) : Prop := q.custom = true ∨ q.caps ≠ []

theorem consume_load (hc : q.counts) (rest : List Node) : ∀ (r : Res) (i : Node),
    (q.consume r i rest).load = r.load + (rest.map q.G.demand).sum := by
  induction rest with
  | nil => intro r i; simp [consume]
  | cons j rest ih =>
    intro r i
    have : (q.ref r i j).load = r.load + q.G.demand j := by
      unfold ref
      split
      · rfl
      · rename_i h
        have h' : q.caps ≠ [] := by
          rcases hc with hc | hc
          · exact absurd hc h
          · exact hc
        simp [refDefault, h']
    rw [consume, ih, this, List.map_cons, List.sum_cons]
    ring

theorem consume_load_not (hc : ¬ q.counts) (rest : List Node) : ∀ (r : Res) (i : Node),
    (q.consume r i rest).load = r.load := by
  unfold counts at hc
  push Not at hc
  induction rest with
  | nil => intro r i; simp [consume]
  | cons j rest ih =>
    intro r i
    have : (q.ref r i j).load = r.load := by
      unfold ref
      rw [if_neg hc.1]
      simp [refDefault, hc.2]
    rw [consume, ih, this]

/-- Default resource function: the time is the travel time, if there is a limit on the duration. -/
theorem consume_travel (hc : q.custom = false) (rest : List Node) : ∀ (r : Res) (i : Node),
    (q.consume r i rest).time = r.time + if active q.duration = none then 0 else travel q.G (i :: rest) := by
  induction rest with
  | nil => intro r i; simp [consume, travel, legSum]
  | cons j rest ih =>
    intro r i
    have : (q.ref r i j).time = r.time + if active q.duration = none then 0 else q.G.time i j := by
      unfold ref
      rw [if_neg (by simp [hc])]
      simp only [refDefault]
      split <;> simp
    rw [consume, ih, this]
    split
    · simp
    · simp only [travel]
      rw [legSum_cons_cons]
      ring

/-- Custom resource function: the time resource is the arrival time. -/
theorem consume_arrival (hc : q.custom = true) (rest : List Node) : ∀ (r : Res) (i : Node),
    (q.consume r i rest).time = (r.time :: arrivalsFrom q.G r.time i rest).getLast (by simp) := by
  induction rest with
  | nil => intro r i; simp [consume, arrivalsFrom]
  | cons j rest ih =>
    intro r i
    have : (q.ref r i j).time = max (r.time + q.G.service i + q.G.time i j) (q.G.lower j) := by
      unfold ref
      rw [if_pos hc]
      rfl
    rw [consume, ih, this]
    simp only [arrivalsFrom]
    rw [List.getLast_cons (a := r.time) (by simp)]

/-- Custom resource function: the clock is at least the travel and service time. -/
theorem le_consume_time (hc : q.custom = true) (rest : List Node) : ∀ (r : Res) (i : Node),
    r.time + legSum (fun u v => q.G.service u + q.G.time u v) (i :: rest) ≤ (q.consume r i rest).time := by
  induction rest with
  | nil => intro r i; simp [consume, legSum]
  | cons j rest ih =>
    intro r i
    have : r.time + q.G.service i + q.G.time i j ≤ (q.ref r i j).time := by
      unfold ref
      rw [if_pos hc]
      exact le_max_left _ _
    have h2 := ih (q.ref r i j) j
    rw [consume, legSum_cons_cons]
    linarith

/-- The window resource is 0 on all prefixes exactly if all arrivals are on time. -/
theorem windows_iff (hc : q.timeWindows = true) (rest : List Node) : ∀ (r : Res) (i : Node),
    (∀ p, p <+: rest → (q.consume r i p).windows ≤ 0) ↔
      r.windows ≤ 0 ∧ ∀ p ∈ rest.zip (arrivalsFrom q.G r.time i rest), p.2 ≤ q.G.upper p.1 := by
  have hcu : q.custom = true := by simp [custom, hc]
  induction rest with
  | nil =>
    intro r i
    rw [prefixes_nil (fun r => r.windows ≤ 0)]
    simp
  | cons j rest ih =>
    intro r i
    rw [prefixes_cons (fun r => r.windows ≤ 0), ih]
    have h1 : (q.ref r i j).time = max (r.time + q.G.service i + q.G.time i j) (q.G.lower j) := by
      unfold ref
      rw [if_pos hcu]
      rfl
    have h2 : (q.ref r i j).windows ≤ 0 ↔ (q.ref r i j).time ≤ q.G.upper j := by
      unfold ref
      rw [if_pos hcu]
      simp only [refFwd, hc]
      split
      · rename_i h
        simpa using h
      · rename_i h
        constructor
        · intro h'; norm_num at h'
        · intro h'; exact absurd (by simpa using h') h
    rw [h2, h1]
    simp only [arrivalsFrom, List.zip_cons_cons, List.forall_mem_cons]

/-- The time resource grows along the path. -/
theorem time_mono (hc : q.custom = true) (rest : List Node) : ∀ (r : Res) (i : Node),
    (∀ u v, (u, v) ∈ consecutive (i :: rest) → 0 ≤ q.G.service u + q.G.time u v) → ∀ p, p <+: rest →
    r.time ≤ (q.consume r i p).time ∧ (q.consume r i p).time ≤ (q.consume r i rest).time := by
  induction rest with
  | nil =>
    intro r i _ p hp
    rw [List.prefix_nil] at hp
    subst hp
    exact ⟨le_refl _, le_refl _⟩
  | cons j rest ih =>
    intro r i hnn p hp
    have h1 : r.time ≤ (q.ref r i j).time := by
      have := hnn i j (by simp)
      have h2 : r.time + q.G.service i + q.G.time i j ≤ (q.ref r i j).time := by
        unfold ref
        rw [if_pos hc]
        exact le_max_left _ _
      linarith
    have h2 := ih (q.ref r i j) j (fun u v huv => hnn u v (by rw [consecutive_cons_cons]; exact List.mem_cons_of_mem _ huv))
    cases p with
    | nil =>
      exact ⟨le_refl _, le_trans h1 (h2 [] (List.nil_prefix)).2⟩
    | cons x p =>
      rw [List.cons_prefix_cons] at hp
      obtain ⟨rfl, hp⟩ := hp
      have := h2 p hp
      exact ⟨le_trans h1 this.1, this.2⟩

theorem custom_of_dc (hc : q.distributionCollection = true) : q.custom = true := by simp [custom, hc]

theorem consume_collect (hc : q.distributionCollection = true) (rest : List Node) : ∀ (r : Res) (i : Node),
    (q.consume r i rest).collect = r.collect + (rest.map q.G.collect).sum := by
  induction rest with
  | nil => intro r i; simp [consume]
  | cons j rest ih =>
    intro r i
    have : (q.ref r i j).collect = r.collect + q.G.collect j := by
      unfold ref
      rw [if_pos (custom_of_dc hc)]
      simp [refFwd, hc]
    rw [consume, ih, this, List.map_cons, List.sum_cons]
    ring

/-- The delivery resource is the largest amount of goods on board along the path. -/
theorem deliver_le_iff (hc : q.distributionCollection = true) (C : ℚ) (rest : List Node) : ∀ (r : Res) (i : Node),
    (q.consume r i rest).deliver ≤ C ↔
      r.deliver + (rest.map q.G.demand).sum ≤ C ∧
      ∀ a b, rest = a ++ b → a ≠ [] → r.collect + (a.map q.G.collect).sum + (b.map q.G.demand).sum ≤ C := by
  induction rest with
  | nil =>
    intro r i
    simp only [consume, List.map_nil, List.sum_nil, add_zero]
    constructor
    · intro h
      refine ⟨h, ?_⟩
      intro a b hab ha
      rw [eq_comm, List.append_eq_nil_iff] at hab
      exact absurd hab.1 ha
    · intro h; exact h.1
  | cons j rest ih =>
    intro r i
    have h1 : (q.ref r i j).collect = r.collect + q.G.collect j := by
      unfold ref
      rw [if_pos (custom_of_dc hc)]
      simp [refFwd, hc]
    have h2 : (q.ref r i j).deliver = max (r.deliver + q.G.demand j) (r.collect + q.G.collect j) := by
      unfold ref
      rw [if_pos (custom_of_dc hc)]
      simp [refFwd, hc]
    rw [consume, ih, h1, h2, ← le_sub_iff_add_le, max_le_iff, le_sub_iff_add_le, le_sub_iff_add_le]
    constructor
    · rintro ⟨⟨h3, h4⟩, h5⟩
      refine ⟨by rw [List.map_cons, List.sum_cons]; linarith, ?_⟩
      intro a b hab ha
      cases a with
      | nil => exact absurd rfl ha
      | cons x a =>
        simp only [List.cons_append, List.cons.injEq] at hab
        obtain ⟨rfl, rfl⟩ := hab
        by_cases ha' : a = []
        · subst ha'
          simpa using h4
        · have := h5 a b rfl ha'
          rw [List.map_cons, List.sum_cons]
          linarith
    · rintro ⟨h3, h5⟩
      rw [List.map_cons, List.sum_cons] at h3
      refine ⟨⟨by linarith, by simpa using h5 [j] rest rfl (by simp)⟩, ?_⟩
      intro a b hab ha
      have := h5 (j :: a) b (by rw [hab]; rfl) (by simp)
      rw [List.map_cons, List.sum_cons] at this
      linarith

theorem deliver_nonneg (hc : q.distributionCollection = true) (rest : List Node) : ∀ (r : Res) (i : Node), 0 ≤ r.deliver →
    (∀ v ∈ rest, 0 ≤ q.G.demand v) → 0 ≤ (q.consume r i rest).deliver := by
  induction rest with
  | nil => intro r i h _; exact h
  | cons j rest ih =>
    intro r i h hd
    rw [consume]
    refine ih _ _ ?_ (fun v hv => hd v (List.mem_cons_of_mem _ hv))
    have h2 : (q.ref r i j).deliver = max (r.deliver + q.G.demand j) (r.collect + q.G.collect j) := by
      unfold ref
      rw [if_pos (custom_of_dc hc)]
      simp [refFwd, hc]
    rw [h2]
    exact le_trans (add_nonneg h (hd j (by simp))) (le_max_left _ _)

/-- Without distribution and collection these two resources are not used. -/
theorem consume_unused (hc : q.distributionCollection = false) (rest : List Node) : ∀ (r : Res) (i : Node),
    (q.consume r i rest).collect = r.collect ∧ (q.consume r i rest).deliver = r.deliver := by
  induction rest with
  | nil => intro r i; exact ⟨rfl, rfl⟩
  | cons j rest ih =>
    intro r i
    have : (q.ref r i j).collect = r.collect ∧ (q.ref r i j).deliver = r.deliver := by
      unfold ref
      split
      · simp [refFwd, hc]
      · exact ⟨rfl, rfl⟩
    rw [consume]
    exact ⟨(ih _ _).1.trans this.1, (ih _ _).2.trans this.2⟩

/-- Without time windows the window resource stays 0. -/
theorem consume_windows (hc : q.timeWindows = false) (rest : List Node) : ∀ (r : Res) (i : Node), r.windows = 0 →
    (q.consume r i rest).windows = 0 := by
  induction rest with
  | nil => intro r i h; exact h
  | cons j rest ih =>
    intro r i h
    rw [consume]
    refine ih _ _ ?_
    unfold ref
    split
    · simp [refFwd, hc]
    · exact h

theorem windows_nonneg (rest : List Node) : ∀ (r : Res) (i : Node), 0 ≤ r.windows → 0 ≤ (q.consume r i rest).windows := by
  induction rest with
  | nil => intro r i h; exact h
  | cons j rest ih =>
    intro r i h
    rw [consume]
    refine ih _ _ ?_
    unfold ref
    split
    · simp only [refFwd]
      split <;> norm_num
    · exact h

/-- The limits. -/
theorem formulate_ok {m : Res} (h : q.formulate = .ok m) :
    m.stops = (q.setStops q.initialMax).stops ∧
    (q.caps = [] → m.load = q.initialMax.load ∧ m.collect = q.initialMax.collect ∧ m.deliver = q.initialMax.deliver) ∧
    (q.caps ≠ [] → q.caps[q.vehicleType]? = some m.load ∧
      (q.distributionCollection = true → m.collect = m.load ∧ m.deliver = m.load) ∧
      (q.distributionCollection = false → m.collect = q.initialMax.collect ∧ m.deliver = q.initialMax.deliver)) ∧
    (∀ d, active q.duration = some d → m.time = d) ∧
    (active q.duration = none → m.time = if q.timeWindows then 1 + q.G.upper .sink else q.initialMax.time) ∧
    m.windows = (if q.timeWindows then 0 else 1) ∧ q.pickupDelivery = false := by
  unfold formulate at h
  split at h
  · cases h
  · rename_i m1 h1
    split at h
    · cases h
    · rename_i m2 h2
      split at h
      · cases h
      · rename_i hpd
        simp only [Except.ok.injEq] at h
        subst h
        have hst : ∀ m : Res, (q.setStops m).load = m.load ∧ (q.setStops m).collect = m.collect ∧
            (q.setStops m).deliver = m.deliver ∧ (q.setStops m).time = m.time ∧ (q.setStops m).windows = m.windows := by
          intro m
          unfold setStops
          split <;> simp
        obtain ⟨s1, s2, s3, s4, s5⟩ := hst q.initialMax
        have hload : m1.stops = (q.setStops q.initialMax).stops ∧ m1.time = q.initialMax.time ∧ m1.windows = 1 ∧
            (q.caps = [] → m1.load = q.initialMax.load ∧ m1.collect = q.initialMax.collect ∧
              m1.deliver = q.initialMax.deliver) ∧
            (q.caps ≠ [] → q.caps[q.vehicleType]? = some m1.load ∧
              (q.distributionCollection = true → m1.collect = m1.load ∧ m1.deliver = m1.load) ∧
              (q.distributionCollection = false → m1.collect = q.initialMax.collect ∧
                m1.deliver = q.initialMax.deliver)) := by
          unfold setLoad at h1
          split at h1
          · rename_i hc
            simp only [Except.ok.injEq] at h1
            subst h1
            exact ⟨rfl, s4, s5, fun _ => ⟨s1, s2, s3⟩, fun h => absurd hc h⟩
          · rename_i hc
            split at h1
            · cases h1
            · rename_i c hk
              split at h1
              · rename_i hdc
                simp only [Except.ok.injEq] at h1
                subst h1
                exact ⟨rfl, s4, s5, fun h => absurd h hc, fun _ => ⟨hk, fun _ => ⟨rfl, rfl⟩, fun h => by rw [hdc] at h; cases h⟩⟩
              · rename_i hdc
                simp only [Except.ok.injEq] at h1
                subst h1
                exact ⟨rfl, s4, s5, fun h => absurd h hc, fun _ => ⟨hk, fun h => absurd h hdc, fun _ => ⟨s2, s3⟩⟩⟩
        obtain ⟨l1, l2, l3, l4, l5⟩ := hload
        unfold setTime at h2
        split at h2
        · rename_i htw
          split at h2
          · cases h2
          · split at h2
            all_goals
              rename_i hd
              simp only [Except.ok.injEq] at h2
              subst h2
              refine ⟨l1, l4, l5, ?_, ?_, by simp [htw], by simpa using hpd⟩
              · intro d hd'
                rw [hd] at hd'
                cases hd' <;> rfl
              · intro hd'
                rw [hd] at hd'
                cases hd' <;> simp [htw]
        · rename_i htw
          split at h2
          all_goals
            rename_i hd
            simp only [Except.ok.injEq] at h2
            subst h2
            refine ⟨l1, l4, l5, ?_, ?_, by simp [htw, l3], by simpa using hpd⟩
            · intro d hd'
              rw [hd] at hd'
              cases hd' <;> rfl
            · intro hd'
              rw [hd] at hd'
              cases hd' <;> simp [htw, l2]

theorem within_iff {m r : Res} : m.within r = true ↔
    (0 ≤ r.stops ∧ r.stops ≤ m.stops) ∧ (0 ≤ r.load ∧ r.load ≤ m.load) ∧ (0 ≤ r.time ∧ r.time ≤ m.time) ∧
    (0 ≤ r.windows ∧ r.windows ≤ m.windows) ∧ (0 ≤ r.collect ∧ r.collect ≤ m.collect) ∧
    (0 ≤ r.deliver ∧ r.deliver ≤ m.deliver) := by
  simp only [Res.within, Bool.and_eq_true, decide_eq_true_eq, and_assoc]

end Cspy

end Vrpy
