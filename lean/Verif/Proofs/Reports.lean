import Verif.Model.Reports
import Verif.Proofs.Columns
import Mathlib.Tactic.Linarith

/-! Lemmas about dicts and the reports. -/

namespace Vrpy

open Spec

section dict

variable {κ α : Type} [DecidableEq κ]

theorem dget_dset (d : Dict κ α) (k k' : κ) (v : α) : dget (dset d k v) k' = if k' = k then some v else dget d k' := by
  induction d with
  | nil => simp [dset, dget]
  | cons p d ih =>
    obtain ⟨a, b⟩ := p
    by_cases h : k = a
    · subst h
      simp only [dset, if_true, dget]
      by_cases hk : k' = k <;> simp [hk]
    · simp only [dset, h, if_false, dget]
      by_cases hk : k' = a
      · have : k' ≠ k := by rintro rfl; exact h hk
        simp only [hk, if_true]
        rw [if_neg]
        rw [← hk]; exact this
      · simp [hk, ih]

theorem dget_dset_self (d : Dict κ α) (k : κ) (v : α) : dget (dset d k v) k = some v := by rw [dget_dset, if_pos rfl]

theorem dget_dset_ne (d : Dict κ α) {k k' : κ} (v : α) (h : k' ≠ k) : dget (dset d k v) k' = dget d k' := by
  rw [dget_dset, if_neg h]

theorem dset_fresh (d : Dict κ α) (k : κ) (v : α) (h : k ∉ d.map Prod.fst) : dset d k v = d ++ [(k, v)] := by
  induction d with
  | nil => rfl
  | cons p d ih =>
    obtain ⟨a, b⟩ := p
    simp only [List.map_cons, List.mem_cons, not_or] at h
    simp [dset, h.1, ih h.2]

theorem dget_eq_none (d : Dict κ α) (k : κ) : dget d k = none ↔ k ∉ d.map Prod.fst := by
  induction d with
  | nil => simp [dget]
  | cons p d ih =>
    obtain ⟨a, b⟩ := p
    by_cases h : k = a <;> simp [dget, h, ih]

theorem dget_isSome (d : Dict κ α) (k : κ) : (dget d k).isSome ↔ k ∈ d.map Prod.fst := by
  rw [← not_iff_not, ← dget_eq_none]
  simp

theorem dget_of_mem {d : Dict κ α} (hnd : (d.map Prod.fst).Nodup) {k : κ} {v : α} (h : (k, v) ∈ d) : dget d k = some v := by
  induction d with
  | nil => simp at h
  | cons p d ih =>
    obtain ⟨a, b⟩ := p
    simp only [List.map_cons, List.nodup_cons] at hnd
    rcases List.mem_cons.1 h with h | h
    · simp only [Prod.mk.injEq] at h
      simp [dget, h.1, h.2]
    · have : k ≠ a := fun hk => hnd.1 (List.mem_map.2 ⟨(k, v), h, hk⟩)
      simp [dget, this, ih hnd.2 h]

theorem mem_of_dget {d : Dict κ α} {k : κ} {v : α} (h : dget d k = some v) : (k, v) ∈ d := by
  induction d with
  | nil => simp [dget] at h
  | cons p d ih =>
    obtain ⟨a, b⟩ := p
    simp only [dget] at h
    split at h
    · rename_i hk
      cases h
      simp [hk]
    · exact List.mem_cons_of_mem _ (ih h)

theorem dset_keys (d : Dict κ α) (k : κ) (v : α) :
    (dset d k v).map Prod.fst = if k ∈ d.map Prod.fst then d.map Prod.fst else d.map Prod.fst ++ [k] := by
  induction d with
  | nil => simp [dset]
  | cons p d ih =>
    obtain ⟨a, b⟩ := p
    by_cases h : k = a
    · simp [dset, h]
    · simp only [dset, h, if_false, List.map_cons, List.mem_cons, false_or, ih]
      split <;> simp

end dict

/-- Induction along the legs of a route. -/
theorem leg_induction {P : Node → Prop} {u : Node} {rest : List Node} (h0 : P u)
    (h : ∀ x y, (x, y) ∈ consecutive (u :: rest) → P x → P y) : ∀ v ∈ u :: rest, P v := by
  induction rest generalizing u with
  | nil => intro v hv; simp at hv; subst hv; exact h0
  | cons w rest ih =>
    intro v hv
    have hw : P w := h u w (by simp) h0
    rcases List.mem_cons.1 hv with rfl | hv
    · exact h0
    · exact ih hw (fun x y hxy => h x y (by rw [consecutive_cons_cons]; exact List.mem_cons_of_mem _ hxy)) v hv

theorem arrival_fold {H : Net} (rest : List Node) (u : Node) (d : Dict Node ℚ) (t : ℚ) (hnd : (u :: rest).Nodup)
    (hal : Along (fun a b => b ∈ H.succ a) (u :: rest)) (hd : dget d u = some t) :
    ∃ d', (consecutive (u :: rest)).foldlM (arrivalStep H) d = .ok d' ∧
      (∀ x, x ∉ rest → dget d' x = dget d x) ∧
      (rest.map (dget d') = (arrivalsFrom H t u rest).map some) ∧
      ∀ x y, (x, y) ∈ consecutive (u :: rest) → ∃ a b, dget d' x = some a ∧ dget d' y = some b ∧
        b = max (a + H.service x + H.time x y) (H.lower y) := by
  induction rest generalizing u d t with
  | nil => exact ⟨d, rfl, fun _ _ => rfl, rfl, by simp⟩
  | cons w rest ih =>
    have hw : w ∈ H.succ u := hal.1
    have huw : u ≠ w := by intro h; subst h; simp at hnd
    set a := max (t + H.service u + H.time u w) (H.lower w) with ha
    have hnd' : (w :: rest).Nodup := (List.nodup_cons.1 hnd).2
    obtain ⟨d', h1, h2, h3, h4⟩ := ih w (dset d w a) a hnd' hal.2 (dget_dset_self _ _ _)
    have hstep : arrivalStep H d (u, w) = .ok (dset d w a) := by
      simp [arrivalStep, hd, Net.edgeTime, Net.hasEdge, hw, ha]
    have hdu : dget d' u = some t := by
      rw [h2 u (by have := (List.nodup_cons.1 hnd).1; simp at this; exact this.2), dget_dset_ne _ _ huw, hd]
    have hdw : dget d' w = some a := by
      rw [h2 w (List.nodup_cons.1 hnd').1, dget_dset_self]
    refine ⟨d', ?_, ?_, ?_, ?_⟩
    · rw [consecutive_cons_cons, List.foldlM_cons, hstep]
      exact h1
    · intro x hx
      simp only [List.mem_cons, not_or] at hx
      rw [h2 x hx.2, dget_dset_ne _ _ hx.1]
    · simp only [List.map_cons, arrivalsFrom, hdw, h3, ← ha]
    · intro x y hxy
      rw [consecutive_cons_cons] at hxy
      rcases List.mem_cons.1 hxy with h | h
      · simp only [Prod.mk.injEq] at h
        obtain ⟨rfl, rfl⟩ := h
        exact ⟨t, a, hdu, hdw, ha⟩
      · exact h4 x y h

theorem departure_fold {H : Net} (arr : Dict Node ℚ) (rest : List Node) (u : Node) (d : Dict Node ℚ)
    (harr : ∀ x ∈ rest, (dget arr x).isSome) (hnd : (u :: rest).Nodup) :
    ∃ d', (consecutive (u :: rest)).foldlM (departureStep H arr) d = .ok d' ∧
      (∀ x, x ∉ rest → dget d' x = dget d x) ∧
      ∀ x ∈ rest, ∃ a, dget arr x = some a ∧ dget d' x = some (a + H.service x) := by
  induction rest generalizing u d with
  | nil => exact ⟨d, rfl, fun _ _ => rfl, by simp⟩
  | cons w rest ih =>
    obtain ⟨a, ha⟩ := Option.isSome_iff_exists.1 (harr w (by simp))
    have hnd' : (w :: rest).Nodup := (List.nodup_cons.1 hnd).2
    obtain ⟨d', h1, h2, h3⟩ := ih w (dset d w (a + H.service w)) (fun x hx => harr x (by simp [hx])) hnd'
    refine ⟨d', ?_, ?_, ?_⟩
    · rw [consecutive_cons_cons, List.foldlM_cons]
      simp only [departureStep, ha]
      exact h1
    · intro x hx
      simp only [List.mem_cons, not_or] at hx
      rw [h2 x hx.2, dget_dset_ne _ _ hx.1]
    · intro x hx
      rcases List.mem_cons.1 hx with rfl | hx
      · exact ⟨a, ha, by rw [h2 x (List.nodup_cons.1 hnd').1, dget_dset_self]⟩
      · exact h3 x hx

theorem sumEdgeTimes_ok {H : Net} {es : List (Node × Node)} {c : ℚ} :
    sumEdgeTimes H es = .ok c ↔ (∀ e ∈ es, e.2 ∈ H.succ e.1) ∧ c = (es.map (fun e => H.time e.1 e.2)).sum := by
  have aux : ∀ (es : List (Node × Node)) (a : ℚ),
      es.foldlM (fun acc e => match H.edgeTime e.1 e.2 with
        | .error err => (.error err : Py ℚ) | .ok t => .ok (acc + t)) a = .ok c ↔
      (∀ e ∈ es, e.2 ∈ H.succ e.1) ∧ c = a + (es.map (fun e => H.time e.1 e.2)).sum := by
    intro es
    induction es with
    | nil => intro a; simp [pure, Except.pure, eq_comm]
    | cons e es ih =>
      intro a
      by_cases he : e.2 ∈ H.succ e.1
      · simp only [List.foldlM_cons, Net.edgeTime, Net.hasEdge, he, decide_true, if_true, List.mem_cons, forall_eq_or_imp,
          true_and, List.map_cons, List.sum_cons]
        rw [← add_assoc]
        exact ih (a + H.time e.1 e.2)
      · simp only [List.foldlM_cons, Net.edgeTime, Net.hasEdge, he, decide_false, Bool.false_eq_true, if_false,
          List.mem_cons, forall_eq_or_imp, false_and, iff_false]
        simp [bind, Except.bind]
  have h := aux es 0
  rw [zero_add] at h
  exact h

theorem nodeLoad_fold (H : Net) (dc : Bool) (r : List Node) (q : ℚ) (d : Dict Node ℚ) (hnd : r.Nodup) :
    (∀ x, x ∉ r → dget (r.foldl (nodeLoadStep H dc) (q, d)).2 x = dget d x) ∧
    ∀ pre v post, r = pre ++ v :: post → dget (r.foldl (nodeLoadStep H dc) (q, d)).2 v =
      some (q + ((pre ++ [v]).map (fun x => if dc then H.collect x - H.demand x else H.demand x)).sum) := by
  induction r generalizing q d with
  | nil => exact ⟨fun _ _ => rfl, by simp⟩
  | cons w r ih =>
    obtain ⟨hw, hnd'⟩ := List.nodup_cons.1 hnd
    obtain ⟨h1, h2⟩ := ih (q + H.demand w + if dc then H.collect w - 2 * H.demand w else 0)
      (dset d w (q + H.demand w + if dc then H.collect w - 2 * H.demand w else 0)) hnd'
    have hamt : (q + H.demand w + if dc then H.collect w - 2 * H.demand w else 0) =
        q + (if dc then H.collect w - H.demand w else H.demand w) := by
      cases dc <;> simp <;> ring
    refine ⟨?_, ?_⟩
    · intro x hx
      simp only [List.mem_cons, not_or] at hx
      rw [List.foldl_cons]
      exact (h1 x hx.2).trans (dget_dset_ne _ _ hx.1)
    · intro pre v post heq
      rw [List.foldl_cons]
      cases pre with
      | nil =>
        simp only [List.nil_append, List.cons.injEq] at heq
        obtain ⟨rfl, rfl⟩ := heq
        refine (h1 w hw).trans ?_
        rw [dget_dset_self, hamt]
        simp
      | cons p pre =>
        simp only [List.cons_append, List.cons.injEq] at heq
        obtain ⟨rfl, heq⟩ := heq
        refine (h2 pre v post heq).trans ?_
        rw [hamt]
        simp only [List.cons_append, List.map_cons, List.sum_cons]
        congr 1
        ring

end Vrpy
