import Verif.Props.CspySearch

/-!
# An exact labelling algorithm

The contract of cspy can be met: a path within the limits has at most as many arcs as the first resource allows, so all
paths can be listed.
-/

namespace Vrpy

open Spec

/-- All walks to Sink with at most `n` arcs. -/
def Net.walks (G : Net) : Nat → Node → List (List Node)
  | 0, u => if u = .sink then [[u]] else []
  | n + 1, u => (if u = .sink then [[u]] else []) ++ (G.succ u).flatMap (fun v => (G.walks n v).map (u :: ·))

theorem Net.mem_walks {G : Net} {n : Nat} {u : Node} {p : List Node} :
    p ∈ G.walks n u ↔ p.head? = some u ∧ p.getLast? = some .sink ∧ Along (fun u v => v ∈ G.succ u) p ∧ p.length ≤ n + 1 := by
  induction n generalizing u p with
  | zero =>
    unfold walks
    constructor
    · intro h
      split at h
      · rename_i hu
        rw [List.mem_singleton] at h
        rw [h, hu]
        exact ⟨rfl, rfl, trivial, by simp⟩
      · cases h
    · rintro ⟨h1, h2, _, h4⟩
      match p, h1, h2, h4 with
      | [x], h1, h2, _ =>
        simp only [List.head?_cons, Option.some.injEq] at h1
        simp only [List.getLast?_singleton, Option.some.injEq] at h2
        subst h1
        rw [if_pos h2]
        simp
      | x :: y :: t, _, _, h4 => simp at h4
  | succ n ih =>
    unfold walks
    rw [List.mem_append, List.mem_flatMap]
    constructor
    · rintro (h | ⟨v, hv, h⟩)
      · split at h
        · rename_i hu
          rw [List.mem_singleton] at h
          rw [h, hu]
          exact ⟨rfl, rfl, trivial, by simp⟩
        · cases h
      · obtain ⟨q, hq, rfl⟩ := List.mem_map.1 h
        obtain ⟨h1, h2, h3, h4⟩ := ih.1 hq
        match q, h1, h2, h3, h4 with
        | x :: t, h1, h2, h3, h4 =>
          simp only [List.head?_cons, Option.some.injEq] at h1
          subst h1
          refine ⟨rfl, by rw [List.getLast?_cons_cons]; exact h2, ⟨hv, h3⟩, by simp only [List.length_cons] at h4 ⊢; omega⟩
    · rintro ⟨h1, h2, h3, h4⟩
      match p, h1, h2, h3, h4 with
      | [x], h1, h2, _, _ =>
        simp only [List.head?_cons, Option.some.injEq] at h1
        simp only [List.getLast?_singleton, Option.some.injEq] at h2
        subst h1
        rw [if_pos h2]
        simp
      | x :: y :: t, h1, h2, h3, h4 =>
        simp only [List.head?_cons, Option.some.injEq] at h1
        subst h1
        right
        refine ⟨y, h3.1, List.mem_map.2 ⟨y :: t, ih.2 ⟨rfl, ?_, h3.2, ?_⟩, rfl⟩⟩
        · rwa [List.getLast?_cons_cons] at h2
        · simp only [List.length_cons] at h4 ⊢
          omega

/-- The path of least weight, the first one in case of ties. -/
def cheapest (w : List Node → ℚ) : List (List Node) → Option (ℚ × List Node)
  | [] => none
  | p :: ps =>
    match cheapest w ps with
    | none => some (w p, p)
    | some (c, p') => if w p ≤ c then some (w p, p) else some (c, p')

theorem cheapest_some {w : List Node → ℚ} {ps : List (List Node)} {c : ℚ} {p : List Node} (h : cheapest w ps = some (c, p)) :
    p ∈ ps ∧ c = w p ∧ ∀ p' ∈ ps, c ≤ w p' := by
  induction ps generalizing c p with
  | nil => cases h
  | cons q qs ih =>
    unfold cheapest at h
    cases hc : cheapest w qs with
    | none =>
      rw [hc] at h
      simp only [Option.some.injEq, Prod.mk.injEq] at h
      obtain ⟨rfl, rfl⟩ := h
      have hnil : qs = [] := by
        cases qs with
        | nil => rfl
        | cons a l =>
          unfold cheapest at hc
          split at hc
          · cases hc
          · split at hc <;> cases hc
      subst hnil
      simp
    | some x =>
      obtain ⟨c', p'⟩ := x
      rw [hc] at h
      obtain ⟨h1, h2, h3⟩ := ih hc
      simp only at h
      split at h
      · rename_i hle
        simp only [Option.some.injEq, Prod.mk.injEq] at h
        obtain ⟨rfl, rfl⟩ := h
        refine ⟨List.mem_cons_self .., rfl, ?_⟩
        intro r hr
        rcases List.mem_cons.1 hr with rfl | hr
        · exact le_refl _
        · exact hle.trans (h3 r hr)
      · rename_i hle
        simp only [Option.some.injEq, Prod.mk.injEq] at h
        obtain ⟨rfl, rfl⟩ := h
        refine ⟨List.mem_cons_of_mem _ h1, h2, ?_⟩
        intro r hr
        rcases List.mem_cons.1 hr with rfl | hr
        · exact (not_le.1 hle).le
        · exact h3 r hr

theorem cheapest_of_mem {w : List Node → ℚ} {ps : List (List Node)} {p : List Node} (h : p ∈ ps) :
    ∃ c p', cheapest w ps = some (c, p') := by
  cases ps with
  | nil => cases h
  | cons q qs =>
    unfold cheapest
    split
    · exact ⟨_, _, rfl⟩
    · split
      · exact ⟨_, _, rfl⟩
      · exact ⟨_, _, rfl⟩

namespace Cspy

/-- A test for `WithinLimits`. -/
def limitsHold (q : Cspy) (m : Res) (path : List Node) : Bool :=
  if q.custom then path.inits.all (fun p => decide (p = []) || m.within (q.consumed p)) else m.within (q.consumed path)

theorem limitsHold_iff {q : Cspy} {m : Res} {path : List Node} : q.limitsHold m path = true ↔ WithinLimits q m path := by
  unfold limitsHold WithinLimits
  split
  · simp only [List.all_eq_true, List.mem_inits, Bool.or_eq_true, decide_eq_true_eq]
    constructor
    · intro h p hp hpre
      exact (h p hpre).resolve_left hp
    · intro h p hpre
      by_cases hp : p = []
      · exact Or.inl hp
      · exact Or.inr (h p hp hpre)
  · rfl

/-- An exact labelling algorithm: the best of all paths within the limits. -/
def exactLabels (q : Cspy) : Oracle := fun m e =>
  cheapest (legSum q.weight) ((q.G.walks m.stops.floor.toNat .source).filter
    (fun p => (!e || decide p.Nodup) && q.limitsHold m p))

theorem exactLabels_sound (q : Cspy) : CspySound q (exactLabels q) := by
  intro m e c path h
  obtain ⟨h1, h2, _⟩ := cheapest_some h
  obtain ⟨h3, h4⟩ := List.mem_filter.1 h1
  obtain ⟨w1, w2, w3, _⟩ := Net.mem_walks.1 h3
  simp only [Bool.and_eq_true, Bool.or_eq_true, Bool.not_eq_true', decide_eq_true_eq] at h4
  refine ⟨w1, w2, w3, h2, ?_, limitsHold_iff.1 h4.2⟩
  intro he
  rcases h4.1 with h | h
  · rw [he] at h; cases h
  · exact h

/-- What an exact algorithm finds is at least as good as any path within the limits. -/
theorem exactLabels_best {q : Cspy} {m : Res} {e : Bool} {path : List Node} (h1 : path.head? = some .source)
    (h2 : path.getLast? = some .sink) (h3 : Along (fun u v => v ∈ q.G.succ u) path) (h4 : e = true → path.Nodup)
    (h5 : WithinLimits q m path) : ∃ c p, exactLabels q m e = some (c, p) ∧ c ≤ legSum q.weight path := by
  have hlen : path.length ≤ m.stops.floor.toNat + 1 := by
    have hw : m.within (q.consumed path) := by
      unfold WithinLimits at h5
      split at h5
      · exact h5 path (by intro h; rw [h] at h1; cases h1) (List.prefix_refl _)
      · exact h5
    cases path with
    | nil => simp
    | cons u t =>
      have h6 := (within_iff.1 hw).1.2
      change (q.consume {} u t).stops ≤ m.stops at h6
      rw [consume_stops] at h6
      simp only [zero_add] at h6
      have h7 : (t.length : ℤ) ≤ m.stops.floor := Int.le_floor.2 (by exact_mod_cast h6)
      simp only [List.length_cons]
      omega
  have hmem : path ∈ (q.G.walks m.stops.floor.toNat .source).filter
      (fun p => (!e || decide p.Nodup) && q.limitsHold m p) := by
    refine List.mem_filter.2 ⟨Net.mem_walks.2 ⟨h1, h2, h3, hlen⟩, ?_⟩
    simp only [Bool.and_eq_true, Bool.or_eq_true, Bool.not_eq_true', decide_eq_true_eq]
    refine ⟨?_, limitsHold_iff.2 h5⟩
    cases e with
    | false => exact Or.inl rfl
    | true => exact Or.inr (h4 rfl)
  obtain ⟨c, p, hc⟩ := cheapest_of_mem (w := legSum q.weight) hmem
  exact ⟨c, p, hc, (cheapest_some hc).2.2 path hmem⟩

theorem exactLabels_finds (q : Cspy) : CspyFinds q (exactLabels q) := by
  intro m e path h1 h2 h3 h4 h5 h6
  obtain ⟨c, p, hc, hle⟩ := exactLabels_best h1 h2 h3 h4 h5
  exact ⟨p, c, hc, hle.trans_lt h6⟩

end Cspy

end Vrpy
