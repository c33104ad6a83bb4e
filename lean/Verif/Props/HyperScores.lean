import Verif.Props.Hyper
import Mathlib.Tactic.Ring

/-!
# C87: the scores of the hyper-heuristic, from the history of a run
-/

namespace Vrpy

/-! ## Specification -/

/-- A round of column generation: the heuristic in charge, the new value of the relaxed master problem, whether a column was found,
the selected columns by heuristic, and how long it took. -/
structure Spec.Round where
  heur : Heur
  obj : ℚ
  produced : Bool
  active : Active
  runtime : ℚ

namespace Spec

/-- The value before the next round; the last round is the first in the list. -/
def valueAfter (cost : ℚ) : List Round → ℚ
  | [] => cost
  | r :: _ => r.obj

/-- How often a heuristic was in charge. -/
def uses (l : List Round) (h : Heur) : Nat := (l.filter (fun r => r.heur = h)).length

/-- How often it was in charge when a column was found. -/
def finds (l : List Round) (h : Heur) : Nat := (l.filter (fun r => r.heur = h ∧ r.produced = true)).length

/-- By how much the rounds of the heuristics in `hs` decreased the value. -/
def gain (cost : ℚ) (hs : List Heur) : List Round → ℚ
  | [] => 0
  | r :: l => gain cost hs l + if r.heur ∈ hs then max (valueAfter cost l - r.obj) 0 else 0

/-- How many rounds took longer than the last one of the heuristic. -/
def slower (l : List Round) (h : Heur) : Nat :=
  match l.find? (fun r => r.heur = h) with
  | none => 0
  | some r => (l.filter (fun r' => r.runtime < r'.runtime)).length

/-- The learning rate: 0.99 after a round that found a column and decreased the value, otherwise 0.1 less, at least 0.1. -/
def rate (cost : ℚ) : List Round → ℚ
  | [] => 1
  | r :: l => if r.produced = true ∧ r.obj < valueAfter cost l then 99 / 100 else max (rate cost l - 1 / 10) (1 / 10)

/-- The exploration term; `root m n` stands for `sqrt(2 * log(m) / n)`. -/
def exploration (root : Nat → Nat → ℚ) (l : List Round) (h : Heur) : ℚ :=
  if uses l h = 0 then 0 else root l.length (uses l h)

/-- `x / y`, or 0 if there is nothing to divide. -/
def ratio (x y : ℚ) : ℚ := if y = 0 then 0 else x / y

/-- The score of a heuristic after these rounds: untried heuristics come first; for the others, weighted with the learning rate, the
share of the selected columns, of the rounds that took longer, of the decrease of the value, and of its columns that are selected;
weighted with the rest, the share of the exploration terms. -/
def scoreOf (root : Nat → Nat → ℚ) (cost : ℚ) (l : List Round) (h : Heur) : ℚ :=
  match l with
  | [] => 10000000000
  | r :: _ =>
    if uses l h = 0 then 10000000000
    else rate cost l *
        (1 / 2 * ratio (r.active.count h) (r.active.total) + 1 / 10 * ratio (slower l h) l.length +
          1 / 20 * ratio (gain cost [h] l) (gain cost Heur.all l) + 1 / 20 * ratio (r.active.count h) (finds l h)) +
      (1 - rate cost l) * (3 / 10 * ratio (exploration root l h) ((Heur.all.map (exploration root l)).sum))

end Spec

open Spec

namespace Hyper

/-- The states after `init(cost)` and these rounds; the heuristic in charge is the one picked before. -/
inductive Played (root : Nat → Nat → ℚ) (cost : ℚ) : List Round → Hyper → Prop
  | init : Played root cost [] (({} : Hyper).init cost)
  | touch {l s} : Played root cost l s → Played root cost l { s with timed := true }
  | update {l s s' r} : Played root cost l s → s.current = some r.heur →
      s.update ⟨r.runtime, root⟩ r.obj r.produced r.active = .ok s' → Played root cost (r :: l) s'
  | pick {l s} (i : Nat) : Played root cost l s → Played root cost l (s.pick i).2

/-! ## Proofs -/

theorem uses_cons (r : Round) (l : List Round) (h : Heur) : uses (r :: l) h = uses l h + if h = r.heur then 1 else 0 := by
  unfold uses
  by_cases e : r.heur = h
  · simp [e]
  · have e' : h ≠ r.heur := fun x => e x.symm
    simp [e, e']

theorem finds_cons (r : Round) (l : List Round) (h : Heur) :
    finds (r :: l) h = finds l h + if h = r.heur ∧ r.produced = true then 1 else 0 := by
  unfold finds
  by_cases e : r.heur = h
  · by_cases p : r.produced = true
    · simp [e, p]
    · simp [e, p]
  · have e' : h ≠ r.heur := fun x => e x.symm
    simp [e, e']

theorem uses_sum (l : List Round) : (Heur.all.map (uses l)).sum = l.length := by
  induction l with
  | nil => rfl
  | cons r l ih =>
    simp only [Heur.all, List.map_cons, List.map_nil, List.sum_cons, List.sum_nil] at ih ⊢
    simp only [uses_cons, List.length_cons, ← ih]
    cases r.heur <;> simp <;> omega

theorem gain_nonneg (cost : ℚ) (hs : List Heur) (l : List Round) : 0 ≤ gain cost hs l := by
  induction l with
  | nil => exact le_refl _
  | cons r l ih =>
    unfold gain
    split
    · exact add_nonneg ih (le_max_right _ _)
    · simpa using ih

theorem gain_le (cost : ℚ) (h : Heur) (l : List Round) : gain cost [h] l ≤ gain cost Heur.all l := by
  induction l with
  | nil => exact le_refl _
  | cons r l ih =>
    unfold gain
    rw [if_pos (mem_all r.heur)]
    split
    · linarith
    · have := le_max_right (valueAfter cost l - r.obj) 0
      linarith

/-- What the object remembers. -/
structure Records (root : Nat → Nat → ℚ) (cost : ℚ) (l : List Round) (s : Hyper) : Prop where
  objective : s.objective = some (valueAfter cost l)
  iterations : ∀ h, s.iterations h = uses l h
  added : ∀ h, s.added h = finds l h
  decrease : ∀ h, s.objDecrease h = gain cost [h] l
  total : s.totalDecrease = gain cost Heur.all l
  runtimes : s.runtimes.Perm (l.map Round.runtime)
  last : ∀ h r, l.find? (fun r => r.heur = h) = some r → s.lastRuntime h = r.runtime
  exp : ∀ h, s.exp h = exploration root l h
  normRuntime : ∀ h, uses l h ≠ 0 → s.normRuntime h = ratio (slower l h) l.length
  normObj : ∀ h, s.normObj h = if uses l h = 0 then 0 else ratio (gain cost [h] l) (gain cost Heur.all l)
  theta : s.theta = rate cost l
  points : ∀ h, s.points h = scoreOf root cost l h

theorem ratio_div {x y : ℚ} (h : y ≠ 0) : ratio x y = x / y := if_neg h

theorem filter_compl (l : List ℚ) (x : ℚ) : (l.filter (fun y => y ≤ x)).length + (l.filter (fun y => x < y)).length = l.length := by
  induction l with
  | nil => rfl
  | cons y l ih =>
    by_cases h : y ≤ x
    · simp only [List.filter_cons, h, decide_true, if_true, not_lt.2 h, decide_false, Bool.false_eq_true, if_false, List.length_cons]
      omega
    · simp only [List.filter_cons, h, decide_false, Bool.false_eq_true, if_false, not_le.1 h, decide_true, if_true, List.length_cons]
      omega

theorem rank_eq {dist : List ℚ} {l : List Round} (hp : dist.Perm (l.map Round.runtime)) (hl : l ≠ []) (x : ℚ) :
    runtimeRank dist x = ratio ((l.filter (fun r' => x < r'.runtime)).length) l.length := by
  have hlen : dist.length = l.length := by rw [hp.length_eq, List.length_map]
  have h1 := filter_compl dist x
  have h2 : (dist.filter (fun y => x < y)).length = (l.filter (fun r' => x < r'.runtime)).length := by
    rw [(hp.filter _).length_eq, List.filter_map, List.length_map]
    rfl
  have h0 : (l.length : ℚ) ≠ 0 := by
    rw [Nat.cast_ne_zero]
    exact fun h => hl (List.length_eq_zero_iff.1 h)
  rw [ratio_div h0]
  unfold runtimeRank
  rw [← h2, hlen]
  congr 1
  have : ((dist.filter (fun y => y ≤ x)).length : ℚ) + (dist.filter (fun y => x < y)).length = l.length := by
    rw [← hlen]
    exact_mod_cast h1
  linarith

theorem records {root : Nat → Nat → ℚ} {cost : ℚ} {l : List Round} {s : Hyper} (h : Played root cost l s) :
    Records root cost l s := by
  induction h with
  | init =>
    refine ⟨rfl, fun _ => rfl, fun _ => rfl, fun _ => rfl, rfl, List.Perm.refl _, ?_, fun _ => rfl, ?_, fun _ => rfl, rfl, fun _ => rfl⟩
    · intro h r hr
      cases hr
    · intro h hne
      exact absurd rfl hne
  | touch _ ih =>
    exact ⟨ih.1, ih.2, ih.3, ih.4, ih.5, ih.6, ih.7, ih.8, ih.9, ih.10, ih.11, ih.12⟩
  | pick i _ ih =>
    exact ⟨ih.1, ih.2, ih.3, ih.4, ih.5, ih.6, ih.7, ih.8, ih.9, ih.10, ih.11, ih.12⟩
  | @update l s s' r _ hc hu ih =>
    unfold update at hu
    split at hu
    · cases hu
    rename_i t ht
    unfold performance at ht
    split at ht
    · cases ht
    rw [hc, ih.objective] at ht
    simp only [Except.ok.injEq] at ht
    have hits : ∀ h, t.iterations h = uses (r :: l) h := by
      intro h
      rw [← ht, uses_cons, ← ih.iterations]
      simp only [updateAt]
      split
      · rename_i e; rw [e]
      · simp
    have hadd : ∀ h, t.added h = finds (r :: l) h := by
      intro h
      rw [← ht, finds_cons, ← ih.added]
      by_cases p : r.produced = true
      · simp only [p, if_true, updateAt, and_true]
        split
        · rename_i e; rw [e]
        · simp
      · simp [p]
    have hdec : ∀ h, t.objDecrease h = gain cost [h] (r :: l) := by
      intro h
      rw [← ht]
      simp only [updateAt, gain, List.mem_singleton, ih.decrease]
      by_cases e : h = r.heur
      · simp [e]
      · have e' : r.heur ≠ h := fun x => e x.symm
        simp [e, e']
    have htot : t.totalDecrease = gain cost Heur.all (r :: l) := by
      rw [← ht]
      simp only [gain, mem_all, if_true, ih.total]
    have hrun : t.runtimes.Perm ((r :: l).map Round.runtime) := by
      rw [← ht]
      exact (List.perm_orderedInsert _ _ _).trans (ih.runtimes.cons _)
    have hlast : ∀ h r', (r :: l).find? (fun r => r.heur = h) = some r' → t.lastRuntime h = r'.runtime := by
      intro h r' hf
      rw [← ht]
      simp only [updateAt]
      by_cases e : h = r.heur
      · rw [if_pos e]
        rw [List.find?_cons_of_pos (by simp [e])] at hf
        cases hf
        rfl
      · rw [if_neg e]
        rw [List.find?_cons_of_neg (by simpa using fun x : r.heur = h => e x.symm)] at hf
        exact ih.last h r' hf
    have hlen : (Heur.all.map t.iterations).sum = (r :: l).length := by
      rw [← uses_sum]
      congr 1
      exact List.map_congr_left (fun h _ => hits h)
    have hexp : ∀ h, t.exp h = exploration root (r :: l) h := by
      intro h
      have : t.exp h = if t.iterations h > 0 then root ((Heur.all.map t.iterations).sum) (t.iterations h) else s.exp h := by
        rw [← ht]
      rw [this, hlen, hits]
      unfold exploration
      by_cases e : uses (r :: l) h = 0
      · rw [if_neg (by omega), if_pos e, ih.exp]
        unfold exploration
        rw [if_pos]
        rw [uses_cons] at e
        omega
      · rw [if_pos (by omega), if_neg e]
    have hnr : ∀ h, uses (r :: l) h ≠ 0 → t.normRuntime h = ratio (slower (r :: l) h) (r :: l).length := by
      intro h hne
      have : t.normRuntime h = if t.iterations h > 0 then runtimeRank t.runtimes (t.lastRuntime h) else s.normRuntime h := by
        rw [← ht]
      rw [this, hits, if_pos (by omega), rank_eq hrun (by simp)]
      cases hf : (r :: l).find? (fun r => r.heur = h) with
      | none =>
        exfalso
        apply hne
        unfold uses
        rw [List.length_eq_zero_iff, List.filter_eq_nil_iff]
        exact fun r' hr' => by simpa using List.find?_eq_none.1 hf r' hr'
      | some r' =>
        rw [hlast h r' hf]
        unfold slower
        rw [hf]
    have hno : ∀ h, t.normObj h = if uses (r :: l) h = 0 then 0 else ratio (gain cost [h] (r :: l)) (gain cost Heur.all (r :: l)) := by
      intro h
      have : t.normObj h = if t.iterations h > 0 ∧ t.totalDecrease > 0 then t.objDecrease h / t.totalDecrease else s.normObj h := by
        rw [← ht]
      rw [this, hits, htot, hdec]
      by_cases e : uses (r :: l) h = 0
      · rw [if_neg (by omega), if_pos e, ih.normObj, if_pos]
        rw [uses_cons] at e
        omega
      · rw [if_neg e]
        rcases (gain_nonneg cost Heur.all (r :: l)).lt_or_eq with hpos | h0
        · rw [if_pos ⟨by omega, hpos⟩, ratio_div hpos.ne']
        · rw [if_neg (by rw [← h0]; simp), ← h0, ih.normObj]
          have hle : gain cost Heur.all l = 0 := by
            refine le_antisymm ?_ (gain_nonneg _ _ _)
            have h1 : gain cost Heur.all (r :: l) = gain cost Heur.all l + max (valueAfter cost l - r.obj) 0 := by
              simp only [gain, mem_all, if_true]
            have h2 := le_max_right (valueAfter cost l - r.obj) 0
            linarith
          rw [hle]
          simp [ratio]
    have hth : t.newTheta = rate cost (r :: l) := by
      rw [← ht]
      simp only [newTheta, rate, step, ih.theta, Bool.and_eq_true, decide_eq_true_eq, gt_iff_lt, sub_pos]
      by_cases p : r.produced = true ∧ r.obj < valueAfter cost l
      · rw [if_pos p, if_pos ⟨p.2, p.1⟩]
      · rw [if_neg p, if_neg (fun q => p ⟨q.2, q.1⟩)]
    have hact : t.active = r.active := by rw [← ht]
    have hobj : t.objective = some r.obj := by rw [← ht]
    have hpts : t.points = s.points := by rw [← ht]
    unfold updateParameters at hu
    simp only at hu
    split at hu
    · cases hu
    rename_i hz
    simp only [Except.ok.injEq] at hu
    refine ⟨?_, ?_, ?_, ?_, ?_, ?_, ?_, ?_, ?_, ?_, ?_, ?_⟩
    · rw [← hu]; exact hobj
    · rw [← hu]; exact hits
    · rw [← hu]; exact hadd
    · rw [← hu]; exact hdec
    · rw [← hu]; exact htot
    · rw [← hu]; exact hrun
    · rw [← hu]; exact hlast
    · rw [← hu]; exact hexp
    · rw [← hu]; exact hnr
    · rw [← hu]; exact hno
    · rw [← hu]; exact hth
    · intro h
      rw [← hu]
      show (if t.iterations h > 0 then _ else t.points h) = _
      rw [hits]
      simp only [scoreOf]
      by_cases e : uses (r :: l) h = 0
      · rw [if_neg (by omega), if_pos e, hpts, ih.points]
        have e' : uses l h = 0 := by
          rw [uses_cons] at e
          omega
        cases l with
        | nil => rfl
        | cons r' l => simp only [scoreOf, e', if_true]
      · rw [if_pos (by omega), if_neg e]
        have hne : t.active.total ≠ 0 ∧ t.added h ≠ 0 := by
          by_contra hn
          apply hz
          refine ⟨h, mem_all h, by show t.iterations h > 0; rw [hits]; omega, ?_⟩
          by_contra hn'
          push Not at hn'
          exact hn hn'
        have h1 : (r.active.total : ℚ) ≠ 0 := by rw [← hact]; exact_mod_cast hne.1
        have h2 : (finds (r :: l) h : ℚ) ≠ 0 := by rw [← hadd]; exact_mod_cast hne.2
        have hsum : (Heur.all.map t.exp).sum = (Heur.all.map (exploration root (r :: l))).sum := by
          congr 1
          exact List.map_congr_left (fun h _ => hexp h)
        simp only [score, quality, spread, hth, hact, hnr h e, hno h, if_neg e, hadd, hexp h, hsum, ratio_div h1, ratio_div h2]
        have hsp : (if (Heur.all.map (exploration root (r :: l))).sum = 0 then 0
            else exploration root (r :: l) h / (Heur.all.map (exploration root (r :: l))).sum) =
            ratio (exploration root (r :: l) h) (Heur.all.map (exploration root (r :: l))).sum := rfl
        rw [hsp]
        ring

/-- **C87.** After any rounds of column generation the scores, and with them the choice, are those that follow from the history: the
heuristic picked has the highest score `scoreOf`, and each heuristic with the highest score can be picked. -/
theorem C87_scores {root : Nat → Nat → ℚ} {cost : ℚ} {l : List Round} {s : Hyper} (h : Played root cost l s) :
    (∀ h, s.points h = scoreOf root cost l h) ∧ s.theta = rate cost l ∧
      (∀ i h', scoreOf root cost l h' ≤ scoreOf root cost l (s.pick i).1) ∧
      (∀ h, (∀ h', scoreOf root cost l h' ≤ scoreOf root cost l h) → ∃ i, (s.pick i).1 = h) := by
  have R := records h
  have hp : s.points = scoreOf root cost l := funext R.points
  obtain ⟨h1, _, h3⟩ := C42_selection s
  rw [hp] at h1 h3
  exact ⟨R.points, R.theta, h1, h3⟩

/-- Two rounds: the first, of `BestPaths`, decreased the value and has a selected column, the second, of `BestEdges1`, was faster and
decreased it further. -/
def exPlayed : List Round :=
  [⟨.bestEdges1, 80, true, ⟨fun h => if h = .bestPaths ∨ h = .bestEdges1 then 1 else 0, 2⟩, 1⟩,
    ⟨.bestPaths, 90, true, ⟨fun h => if h = .bestPaths then 1 else 0, 1⟩, 2⟩]

/-- The first of these rounds is one of a history, and the second follows if `BestEdges1` is picked. -/
example : ∃ s, Played exClock.root 100 (exPlayed.drop 1) s ∧ ∃ i, (s.pick i).1 = .bestEdges1 ∧
    (s.pick i).2.current = some .bestEdges1 := by
  obtain ⟨s', hs'⟩ : ∃ s', (({} : Hyper).init 100).update exClock 90 true ⟨fun h => if h = .bestPaths then 1 else 0, 1⟩ = .ok s' :=
    C43_no_error_partial (l := []) (.init _ .start) (by simp [Hyper.init]) _ _ _ (by decide)
  have hp : Played exClock.root 100 (exPlayed.drop 1) s' := .update .init rfl hs'
  obtain ⟨i, hi⟩ := (C87_scores hp).2.2.2 .bestEdges1 (by
    intro h
    cases h <;> simp [scoreOf, exPlayed, uses, exClock, rate, valueAfter, ratio, slower, gain, finds, exploration, Active.total,
      Heur.all] <;> norm_num)
  exact ⟨s', hp, i, hi, congrArg some hi⟩

/-- The scores after both: `BestEdges1` is ahead of `BestPaths`, and the others are untried. -/
example : scoreOf exClock.root 100 exPlayed .bestPaths = 99 / 100 * (1 / 8 + 0 + 1 / 40 + 1 / 20) + 1 / 100 * (3 / 20) ∧
    scoreOf exClock.root 100 exPlayed .bestEdges1 = 99 / 100 * (1 / 8 + 1 / 20 + 1 / 40 + 1 / 20) + 1 / 100 * (3 / 20) ∧
    scoreOf exClock.root 100 exPlayed .exact = 10000000000 := by
  simp [scoreOf, exPlayed, uses, exClock, rate, valueAfter, ratio, slower, gain, finds, exploration, Active.total, Heur.all]
  norm_num

end Hyper

end Vrpy
