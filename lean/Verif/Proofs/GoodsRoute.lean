import Verif.Proofs.GoodsCut
import Verif.Proofs.PricingPoint
import Mathlib.Data.Set.Finite.Lemmas
import Mathlib.Data.Set.Finite.Powerset
import Mathlib.Data.Finset.Max

/-!
# The lightest route in a unit flow
-/

namespace Vrpy

open Spec

namespace Goods

section Dist

variable {U : List (Node × Node)} {w : Node → ℚ}

/-- The weight of a path. -/
def weight (w : Node → ℚ) (p : List Node) : ℚ := (p.map w).sum

theorem weight_append (p q : List Node) : weight w (p ++ q) = weight w p + weight w q := by simp [weight]

theorem weight_nonneg (hw : ∀ v, 0 ≤ w v) (p : List Node) : 0 ≤ weight w p := by
  refine List.sum_nonneg (fun x hx => ?_)
  obtain ⟨v, _, rfl⟩ := List.mem_map.1 hx
  exact hw v

/-- The nodes of a flow. -/
def touched (U : List (Node × Node)) : Finset Node :=
  insert .source ((U.map Prod.fst).toFinset ∪ (U.map Prod.snd).toFinset)

theorem connTo_touched {v : Node} {p : List Node} (h : ConnTo U v p) : ∀ x ∈ p, x ∈ touched U := by
  obtain ⟨h1, _, _, h4⟩ := h
  intro x hx
  obtain ⟨a, b, rfl⟩ := List.append_of_mem hx
  rcases List.eq_nil_or_concat a with rfl | ⟨a', y, rfl⟩
  · simp at h1
    subst h1
    exact Finset.mem_insert_self _ _
  · have : (y, x) ∈ U := h4 _ (mem_consecutive_iff.2 ⟨a', b, by simp⟩)
    refine Finset.mem_insert_of_mem (Finset.mem_union_right _ ?_)
    rw [List.mem_toFinset]
    exact List.mem_map.2 ⟨_, this, rfl⟩

theorem weight_toFinset {p : List Node} (h : p.Nodup) : weight w p = ∑ v ∈ p.toFinset, w v := by
  rw [weight, List.sum_toFinset w h]

theorem connTo_prefix {v x : Node} {a b : List Node} (h : ConnTo U v (a ++ x :: b)) : ConnTo U x (a ++ [x]) := by
  obtain ⟨h1, _, h3, h4⟩ := h
  refine ⟨?_, by simp, h3.sublist (by simp), ?_⟩
  · cases a with
    | nil => simpa using h1
    | cons y a => simpa using h1
  · intro e he
    apply h4
    rw [consecutive_append]
    exact List.mem_append_left _ he

/-- Going on along an arc, perhaps with a shortcut. -/
theorem connTo_extend (hw : ∀ v, 0 ≤ w v) {u v : Node} {p : List Node} (h : ConnTo U u p) (huv : (u, v) ∈ U) :
    ∃ q, ConnTo U v q ∧ weight w q ≤ weight w p + w v := by
  by_cases hv : v ∈ p
  · obtain ⟨a, b, rfl⟩ := List.append_of_mem hv
    refine ⟨a ++ [v], connTo_prefix h, ?_⟩
    have h1 := weight_nonneg hw b
    have h2 := hw v
    have h3 : weight w (a ++ v :: b) = weight w (a ++ [v]) + weight w b := by rw [← weight_append]; simp
    linarith
  · obtain ⟨h1, h2, h3, h4⟩ := h
    obtain ⟨xs, rfl⟩ : ∃ xs, p = xs ++ [u] := by
      rcases List.eq_nil_or_concat p with rfl | ⟨xs, b, rfl⟩
      · simp at h2
      · refine ⟨xs, ?_⟩
        simp at h2
        simp [h2]
    refine ⟨(xs ++ [u]) ++ [v], ⟨?_, by simp, ?_, ?_⟩, ?_⟩
    · rw [List.head?_append, h1]; rfl
    · rw [List.nodup_append]
      exact ⟨h3, by simp, fun a ha b hb => by simp at hb; subst hb; exact fun hab => hv (hab ▸ ha)⟩
    · intro e he
      rw [List.append_assoc, List.singleton_append, consecutive_append_two] at he
      rcases List.mem_append.1 he with he | he
      · exact h4 e he
      · simp at he; rw [he]; exact huv
    · rw [weight_append]
      simp [weight]

theorem exists_least (w : Node → ℚ) {v : Node} (h : ∃ p, ConnTo U v p) :
    ∃ p, ConnTo U v p ∧ ∀ q, ConnTo U v q → weight w p ≤ weight w q := by
  have hfin : (weight w '' {p | ConnTo U v p}).Finite := by
    refine Set.Finite.subset ((Set.finite_mem_finset (touched U).powerset).image (fun s => ∑ v ∈ s, w v)) ?_
    rintro _ ⟨p, hp, rfl⟩
    refine ⟨p.toFinset, ?_, (weight_toFinset hp.2.2.1).symm⟩
    simp only [Set.mem_ofPred_eq, Finset.mem_powerset]
    intro x hx
    exact connTo_touched hp x (List.mem_toFinset.1 hx)
  obtain ⟨p0, hp0⟩ := h
  obtain ⟨x, ⟨p, hp, rfl⟩, hmin⟩ := Set.exists_min_image _ id hfin ⟨_, p0, hp0, rfl⟩
  exact ⟨p, hp, fun q hq => hmin _ ⟨q, hq, rfl⟩⟩

open Classical in
/-- The distance from Source. -/
noncomputable def far (U : List (Node × Node)) (w : Node → ℚ) (v : Node) : ℚ :=
  if h : ∃ p, ConnTo U v p then weight w (exists_least w h).choose else ∑ x ∈ touched U, w x

theorem far_le {v : Node} {p : List Node} (h : ConnTo U v p) : far U w v ≤ weight w p := by
  have hex : ∃ p, ConnTo U v p := ⟨p, h⟩
  unfold far
  rw [dif_pos hex]
  exact (exists_least w hex).choose_spec.2 p h

theorem far_eq {v : Node} (hex : ∃ p, ConnTo U v p) : ∃ p, ConnTo U v p ∧ far U w v = weight w p := by
  unfold far
  rw [dif_pos hex]
  exact ⟨_, (exists_least w hex).choose_spec.1, rfl⟩

theorem far_step (hw : ∀ v, 0 ≤ w v) {u v : Node} (huv : (u, v) ∈ U) : far U w v ≤ far U w u + w v := by
  by_cases hu : ∃ p, ConnTo U u p
  · obtain ⟨p, hp, he⟩ := far_eq (w := w) hu
    obtain ⟨q, hq, hle⟩ := connTo_extend hw hp huv
    rw [he]
    exact (far_le hq).trans hle
  · have h1 : far U w u = ∑ x ∈ touched U, w x := by unfold far; rw [dif_neg hu]
    rw [h1]
    have h2 : far U w v ≤ ∑ x ∈ touched U, w x := by
      by_cases hv : ∃ p, ConnTo U v p
      · obtain ⟨p, hp⟩ := hv
        refine (far_le hp).trans ?_
        rw [weight_toFinset hp.2.2.1]
        refine Finset.sum_le_sum_of_subset_of_nonneg ?_ (fun x _ _ => hw x)
        intro x hx
        exact connTo_touched hp x (List.mem_toFinset.1 hx)
      · unfold far; rw [dif_neg hv]
    linarith [hw v]

theorem far_along (hw : ∀ v, 0 ≤ w v) : ∀ (b : List Node) (x : Node), (∀ e ∈ consecutive (x :: b), e ∈ U) →
    ∀ v, (x :: b).getLast? = some v → far U w v ≤ far U w x + weight w b
  | [], x, _, v, hv => by
    simp at hv
    subst hv
    simp [weight]
  | y :: b, x, h, v, hv => by
    rw [consecutive_cons_cons] at h
    have h1 := far_along hw b y (fun e he => h e (List.mem_cons_of_mem _ he)) v (by simpa [List.getLast?_cons_cons] using hv)
    have h2 := far_step hw (h (x, y) List.mem_cons_self)
    have h3 : weight w (y :: b) = w y + weight w b := by simp [weight]
    linarith

/-- A flow contains a route along which the distances are exact. -/
theorem exists_lightest (hU : UnitFlow U) (hw : ∀ v, 0 ≤ w v) :
    ∃ mid, ConnTo U .sink (routeOf mid) ∧ Node.source ∉ mid ∧ Node.sink ∉ mid ∧
      ∀ a x b, routeOf mid = a ++ x :: b → far U w x = weight w (a ++ [x]) := by
  obtain ⟨p, hp, he⟩ := far_eq (w := w) hU.exists_path
  obtain ⟨mid, rfl, _, h1, h2⟩ := connTo_routeOf hp
  refine ⟨mid, hp, h1, h2, ?_⟩
  intro a x b hab
  rw [hab] at hp he
  refine le_antisymm (far_le (connTo_prefix hp)) ?_
  have h3 := far_along (U := U) hw b x (fun e he' => hp.2.2.2 e (by
    rw [show a ++ x :: b = a ++ (x :: b) from rfl]
    obtain ⟨s, t, hst⟩ := mem_consecutive_iff.1 he'
    exact mem_consecutive_iff.2 ⟨a ++ s, t, by rw [hst]; simp⟩)) .sink (by
    have := hp.2.1
    rw [List.getLast?_append] at this
    cases hl : (x :: b).getLast? with
    | none => simp at hl
    | some y => rw [hl] at this; simpa using this)
  have h4 : weight w (a ++ x :: b) = weight w (a ++ [x]) + weight w b := by rw [← weight_append]; simp
  linarith

end Dist

theorem sum_take (F : Node → ℚ) (z : Node) (l : List Node) : ∀ m, m ≤ l.length →
    ((l.take m).map F).sum = ∑ k ∈ Finset.range m, F (l.getD k z) := by
  intro m
  induction m with
  | zero => intro _; simp
  | succ m ih =>
    intro hm
    rw [Finset.sum_range_succ, ← ih (by omega), List.take_succ_eq_append_getElem (by omega), List.map_append, List.sum_append]
    simp [List.getD_eq_getElem?_getD, List.getElem?_eq_getElem (show m < l.length by omega)]

/-- The lightest route of a flow with goods: it is part of the flow, and never carries more than the capacity. -/
theorem light_route {U : List (Node × Node)} (hU : UnitFlow U) {cap : ℚ} {c d : Node → ℚ} {f g : Node × Node → ℚ}
    (h : Carried U.toFinset cap c d f g) (hc : c .source = 0) :
    ∃ mid, ConnTo U .sink (routeOf mid) ∧ Node.source ∉ mid ∧ Node.sink ∉ mid ∧
      ∀ pre post, routeOf mid = pre ++ post → pre ≠ [] → post ≠ [] → (post.map d).sum + (pre.map c).sum ≤ cap := by
  have hw : ∀ v, 0 ≤ c v + d v := fun v => add_nonneg (h.c_nonneg v) (h.d_nonneg v)
  obtain ⟨mid, hp, h1, h2, htight⟩ := exists_lightest hU hw
  refine ⟨mid, hp, h1, h2, ?_⟩
  set l := routeOf mid with hl
  have hlen : l.length = mid.length + 2 := by simp [hl, routeOf]
  have hget : ∀ k, (hk : k < l.length) → l.getD k .sink = l[k] := fun k hk => by
    simp [List.getD_eq_getElem?_getD, List.getElem?_eq_getElem hk]
  have hsplit : ∀ k, (hk : k < l.length) → l = l.take k ++ l[k] :: l.drop (k + 1) := by
    intro k hk
    rw [← List.drop_eq_getElem_cons hk, List.take_append_drop]
  have hr : Lightest U.toFinset (fun v => c v + d v) (fun k => l.getD k .sink) (mid.length + 1) (far U (fun v => c v + d v)) := by
    refine ⟨by simp [hl, routeOf], ?_, ?_, ?_, ?_, ?_⟩
    · simp [hl, routeOf, List.getD_eq_getElem?_getD]
    · intro k hk
      rw [List.mem_toFinset, hget k (by omega), hget (k + 1) (by omega)]
      refine hp.2.2.2 _ (mem_consecutive_iff.2 ⟨l.take k, l.drop (k + 2), ?_⟩)
      rw [← List.drop_eq_getElem_cons (by omega)]
      exact hsplit k (by omega)
    · intro i hi j hj hij
      rw [hget i (by omega), hget j (by omega)] at hij
      exact (List.Nodup.getElem_inj_iff hp.2.2.1).1 hij
    · intro k hk
      rw [hget k (by omega), hget (k + 1) (by omega), htight _ _ _ (hsplit k (by omega)),
        htight _ _ _ (hsplit (k + 1) (by omega)), weight_append, List.take_succ_eq_append_getElem (by omega : k < l.length)]
      simp [weight]
    · intro e he
      exact far_step hw (List.mem_toFinset.1 he)
  intro pre post he hpre hpost
  have hlp : pre.length + post.length = mid.length + 2 := by rw [← hlen, he, List.length_append]
  have hp0 : 0 < pre.length := List.length_pos_iff.2 hpre
  have hq0 : 0 < post.length := List.length_pos_iff.2 hpost
  have hpeak := h.peak hr (i := pre.length - 1) (by omega)
  rw [show pre.length - 1 + 1 = pre.length by omega] at hpeak
  have e1 : (pre.map c).sum = ∑ k ∈ Finset.Ico 1 pre.length, c (l.getD k .sink) := by
    have h3 := sum_take c .sink l pre.length (by omega)
    rw [he, List.take_left' rfl, ← he, Finset.range_eq_Ico, Finset.sum_eq_sum_Ico_succ_bot (by omega)] at h3
    rw [h3]
    have : l.getD 0 .sink = .source := by simp [hl, routeOf]
    rw [this, hc, zero_add]
  have e2 : (post.map d).sum = ∑ k ∈ Finset.Ico pre.length (mid.length + 1 + 1), d (l.getD k .sink) := by
    have h3 := sum_take d .sink l pre.length (by omega)
    have h4 := sum_take d .sink l l.length le_rfl
    rw [List.take_length, hlen] at h4
    have h5 : (l.map d).sum = (pre.map d).sum + (post.map d).sum := by rw [he, List.map_append, List.sum_append]
    rw [he, List.take_left' rfl, ← he] at h3
    have h6 := Finset.sum_range_add_sum_Ico (fun k => d (l.getD k .sink)) (show pre.length ≤ mid.length + 2 by omega)
    rw [← h3, ← h4, h5] at h6
    linarith
  rw [e1, e2]
  linarith

end Goods

end Vrpy
