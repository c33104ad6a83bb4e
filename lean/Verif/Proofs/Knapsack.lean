import Verif.Model.Preprocessing
import Verif.Proofs.Py
import Mathlib.Algebra.Order.BigOperators.Group.List

/-! The knapsack table holds the true optimum. -/

namespace Vrpy

/-- Optimal cardinality, last item first. -/
def bestR : List ℤ → Nat → Nat
  | [], _ => 0
  | w :: l, j => if w > (j : ℤ) then bestR l j else max (1 + bestR l ((j : ℤ) - w).toNat) (bestR l j)

theorem bestR_attained (l : List ℤ) (hl : ∀ w ∈ l, 0 ≤ w) (j : Nat) :
    ∃ s : List ℤ, s.Sublist l ∧ s.sum ≤ (j : ℤ) ∧ s.length = bestR l j := by
  induction l generalizing j with
  | nil => exact ⟨[], List.Sublist.refl _, by simp, rfl⟩
  | cons w l ih =>
    have ih := ih (fun x hx => hl x (by simp [hx]))
    have hw := hl w (by simp)
    simp only [bestR]
    split_ifs with h
    · obtain ⟨s, h1, h2, h3⟩ := ih j
      exact ⟨s, h1.cons _, h2, h3⟩
    · rcases le_total (bestR l j) (1 + bestR l ((j : ℤ) - w).toNat) with hh | hh
      · rw [max_eq_left hh]
        obtain ⟨s, h1, h2, h3⟩ := ih ((j : ℤ) - w).toNat
        refine ⟨w :: s, h1.cons_cons _, ?_, by simp [h3]; omega⟩
        simp only [List.sum_cons]
        omega
      · rw [max_eq_right hh]
        obtain ⟨s, h1, h2, h3⟩ := ih j
        exact ⟨s, h1.cons _, h2, h3⟩

theorem bestR_mono (l : List ℤ) (j k : Nat) (h : j ≤ k) : bestR l j ≤ bestR l k := by
  induction l generalizing j k with
  | nil => simp [bestR]
  | cons w l ih =>
    simp only [bestR]
    split_ifs with h1 h2 h2
    · exact ih j k h
    · exact le_trans (ih j k h) (le_max_right _ _)
    · omega
    · apply max_le_max
      · have := ih ((j : ℤ) - w).toNat ((k : ℤ) - w).toNat (by omega)
        omega
      · exact ih j k h

theorem bestR_max (l : List ℤ) (hl : ∀ w ∈ l, 0 ≤ w) (j : Nat) (s : List ℤ) (hs : s.Sublist l)
    (hsum : s.sum ≤ (j : ℤ)) : s.length ≤ bestR l j := by
  induction l generalizing j s with
  | nil => simp [List.sublist_nil.1 hs]
  | cons w l ih =>
    have ih := ih (fun x hx => hl x (by simp [hx]))
    have hw := hl w (by simp)
    simp only [bestR]
    cases hs with
    | cons _ h =>
      have := ih j s h hsum
      split_ifs
      · exact this
      · exact le_trans this (le_max_right _ _)
    | cons_cons _ h =>
      rename_i s
      simp only [List.sum_cons] at hsum
      have hnn : 0 ≤ s.sum := List.sum_nonneg (fun x hx => hl x (by simp [h.subset hx]))
      rw [if_neg (by omega)]
      have := ih ((j : ℤ) - w).toNat s h (by omega)
      simp only [List.length_cons]
      omega

/-- The table after the rows below `i` and the columns below `j` of row `i`. -/
def TableInv (ws : List ℤ) (cap i j : Nat) (sol : Table) : Prop :=
  (∀ a, a < i → ∀ b ≤ cap, sol a b = bestR (ws.take (a + 1)).reverse b) ∧
  (∀ b < j, sol i b = bestR (ws.take (i + 1)).reverse b) ∧
  (∀ a, i < a → ∀ b, sol a b = 0)

theorem take_succ_reverse (ws : List ℤ) (i : Nat) (hi : i < ws.length) :
    (ws.take (i + 1)).reverse = ws.getD i 0 :: (ws.take i).reverse := by
  rw [List.take_succ_eq_append_getElem hi]
  simp [List.getD_eq_getElem?_getD, List.getElem?_eq_getElem hi]

theorem knapsackStep_inv (ws : List ℤ) (hws : ∀ w ∈ ws, 0 ≤ w) (hn : 2 ≤ ws.length) (cap i j : Nat)
    (hi : i < ws.length) (hj : j ≤ cap) (sol : Table) (h : TableInv ws cap i j sol) :
    ∃ sol', knapsackStep ws cap i sol j = .ok sol' ∧ TableInv ws cap i (j + 1) sol' := by
  obtain ⟨h1, h2, h3⟩ := h
  have hw : 0 ≤ ws.getD i 0 := by
    rw [List.getD_eq_getElem?_getD, List.getElem?_eq_getElem hi]
    exact hws _ (List.getElem_mem hi)
  have hprev : ∀ b ≤ cap, sol (prevRow ws.length i) b = bestR (ws.take i).reverse b := by
    intro b hb
    unfold prevRow
    split_ifs with h0
    · subst h0
      simp only [List.take_zero, List.reverse_nil, bestR]
      exact h3 _ (by omega) b
    · have := h1 (i - 1) (by omega) b hb
      rwa [Nat.sub_add_cancel (by omega)] at this
  have hcell : knapsackCell ws cap sol i j = .ok (bestR (ws.take (i + 1)).reverse j) := by
    unfold knapsackCell
    rw [take_succ_reverse ws i hi]
    simp only [bestR]
    split_ifs with c1 c2 c3
    · rw [hprev j hj]
    · omega
    · rw [hprev _ (by omega), hprev j hj] at c3
      rw [hprev _ (by omega)]
      congr 1
      omega
    · rw [hprev _ (by omega), hprev j hj] at c3
      rw [hprev j hj]
      congr 1
      omega
  refine ⟨_, by unfold knapsackStep; rw [hcell], ?_, ?_, ?_⟩
  · intro a ha b hb
    simp only [Table.set]
    rw [if_neg (by omega)]
    exact h1 a ha b hb
  · intro b hb
    simp only [Table.set]
    split_ifs with hc
    · rw [hc.2]
    · have : b ≠ j := fun hh => hc ⟨trivial, hh⟩
      exact h2 b (by omega)
  · intro a ha b
    simp only [Table.set]
    rw [if_neg (by omega)]
    exact h3 a ha b

theorem range_foldlM_total {β : Type} {f : β → Nat → Py β} {P : Nat → β → Prop} (n : Nat) (b : β) (hb : P 0 b)
    (hstep : ∀ c i, i < n → P i c → ∃ c', f c i = .ok c' ∧ P (i + 1) c') :
    ∃ b', (List.range n).foldlM f b = .ok b' ∧ P n b' := by
  induction n with
  | zero => exact ⟨b, by simp [pure, Except.pure], hb⟩
  | succ n ih =>
    obtain ⟨c, hc, hPc⟩ := ih (fun c i hi => hstep c i (by omega))
    obtain ⟨c', hc', hPc'⟩ := hstep c n (by omega) hPc
    refine ⟨c', ?_, hPc'⟩
    rw [List.range_succ, List.foldlM_append, hc]
    simp [bind, Except.bind, hc', pure, Except.pure]

theorem knapsack_eq (ws : List ℤ) (hws : ∀ w ∈ ws, 0 ≤ w) (hn : 2 ≤ ws.length) (cap : Nat) :
    knapsack ws cap = .ok (bestR ws.reverse cap) := by
  obtain ⟨sol, h1, h2⟩ := range_foldlM_total (P := fun i sol => TableInv ws cap i 0 sol)
    (f := fun sol i => (List.range (cap + 1)).foldlM (knapsackStep ws cap i) sol) ws.length (fun _ _ => 0)
    ⟨by intro a ha; omega, by intro b hb; omega, by intros; rfl⟩ (by
      intro sol i hi h
      obtain ⟨sol', e1, e2⟩ := range_foldlM_total (P := fun j sol => TableInv ws cap i j sol)
        (f := knapsackStep ws cap i) (cap + 1) sol h
        (fun c j hj hc => knapsackStep_inv ws hws hn cap i j hi (by omega) c hc)
      refine ⟨sol', e1, ?_, by intro b hb; omega, ?_⟩
      · intro a ha b hb
        by_cases hai : a = i
        · subst hai; exact e2.2.1 b (by omega)
        · exact e2.1 a (by omega) b hb
      · intro a ha b
        exact e2.2.2 a (by omega) b)
  have hlast : sol (ws.length - 1) cap = bestR ws.reverse cap := by
    have := h2.1 (ws.length - 1) (by omega) cap le_rfl
    rwa [Nat.sub_add_cancel (by omega), List.take_length] at this
  unfold knapsack
  simp only [h1, bind, Except.bind]
  rw [if_neg (by omega), hlast]
  rfl

end Vrpy
