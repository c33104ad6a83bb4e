import Verif.Model.Basic
import Mathlib.Algebra.BigOperators.Group.Finset.Piecewise
import Mathlib.Algebra.Order.BigOperators.Group.Finset
import Mathlib.Algebra.Order.Field.Rat
import Mathlib.Tactic.Linarith
import Mathlib.Tactic.Ring
import Mathlib.Algebra.BigOperators.Intervals
import Mathlib.Data.Nat.Find

/-!
# Cuts of a unit flow that carries goods

If goods are collected and delivered along a unit flow, a route of least weight (collected plus delivered) in it never
carries more than the capacity.  Nothing here refers to the code.
-/

namespace Vrpy

namespace Goods

/-- Intervals that cover `(a, b]` have total length at least `b - a`. -/
theorem interval_cover {ι : Type} (lo hi : ι → ℚ) (a : ℚ) : ∀ (n : Nat) (s : Finset ι) (b : ℚ), s.card = n →
    (∀ e ∈ s, lo e ≤ hi e) → (∀ τ, a < τ → τ ≤ b → ∃ e ∈ s, lo e < τ ∧ τ ≤ hi e) → b - a ≤ ∑ e ∈ s, (hi e - lo e) := by
  classical
  intro n
  induction n with
  | zero =>
    intro s b hs hle hcov
    by_contra hn
    have h0 : s = ∅ := Finset.card_eq_zero.1 hs
    subst h0
    rw [Finset.sum_empty] at hn
    obtain ⟨e, he, _⟩ := hcov b (by linarith) le_rfl
    simp at he
  | succ n ih =>
    intro s b hs hle hcov
    have hnn : ∀ e ∈ s, 0 ≤ hi e - lo e := fun e he => by linarith [hle e he]
    by_cases hab : b ≤ a
    · have := Finset.sum_nonneg hnn
      linarith
    push Not at hab
    obtain ⟨e, he, h1, h2⟩ := hcov b hab le_rfl
    rw [← Finset.add_sum_erase s _ he]
    have hrest : 0 ≤ ∑ e' ∈ s.erase e, (hi e' - lo e') :=
      Finset.sum_nonneg (fun e' he' => hnn e' (Finset.mem_of_mem_erase he'))
    by_cases hlo : lo e ≤ a
    · linarith
    push Not at hlo
    have := ih (s.erase e) (lo e) (by rw [Finset.card_erase_of_mem he, hs]; rfl)
      (fun e' he' => hle e' (Finset.mem_of_mem_erase he')) (by
        intro τ ht1 ht2
        obtain ⟨e', he', h3, h4⟩ := hcov τ ht1 (by linarith)
        refine ⟨e', Finset.mem_erase.2 ⟨?_, he'⟩, h3, h4⟩
        rintro rfl
        linarith)
    linarith

/-- Between `a` and `b`. -/
def clamp (a b x : ℚ) : ℚ := max a (min b x)

theorem clamp_mono {a b x y : ℚ} (h : x ≤ y) : clamp a b x ≤ clamp a b y :=
  max_le_max le_rfl (min_le_min le_rfl h)

theorem le_clamp {a b x : ℚ} : a ≤ clamp a b x := le_max_left _ _

theorem clamp_le {a b x : ℚ} (h : a ≤ b) : clamp a b x ≤ b := max_le h (min_le_left _ _)

theorem clamp_sub {a b x w : ℚ} (hw : 0 ≤ w) : clamp a b x - clamp a b (x - w) ≤ w := by
  unfold clamp
  rcases le_total b x with h1 | h1 <;> rcases le_total b (x - w) with h2 | h2 <;>
    simp only [min_eq_left, min_eq_right, h1, h2]
  · linarith
  · rcases le_total a b with h3 | h3 <;> rcases le_total a (x - w) with h4 | h4 <;>
      simp only [max_eq_left, max_eq_right, h3, h4] <;> linarith
  · rcases le_total a x with h3 | h3 <;> rcases le_total a b with h4 | h4 <;>
      simp only [max_eq_left, max_eq_right, h3, h4] <;> linarith
  · rcases le_total a x with h3 | h3 <;> rcases le_total a (x - w) with h4 | h4 <;>
      simp only [max_eq_left, max_eq_right, h3, h4] <;> linarith

theorem clamp_left {a b : ℚ} (h : a ≤ b) : clamp a b a = a := by simp [clamp, h]

theorem clamp_right {a b : ℚ} (h : a ≤ b) : clamp a b b = b := by simp [clamp, h]

/-- A unit flow with the goods on its arcs: `f` collected, `g` to be delivered.  A customer takes part as often as it is visited. -/
structure Carried (U : Finset (Node × Node)) (cap : ℚ) (c d : Node → ℚ) (f g : Node × Node → ℚ) : Prop where
  flow : ∀ π : Node → ℚ, ∑ e ∈ U, (π e.2 - π e.1) = π .sink - π .source
  no_in : ∀ e ∈ U, e.2 ≠ .source
  no_out : ∀ e ∈ U, e.1 ≠ .sink
  collected : ∀ π : Node → ℚ, (∀ v, 0 ≤ π v) → π .sink = 0 → ∑ e ∈ U, c e.2 * π e.2 ≤ ∑ e ∈ U, f e * (π e.1 - π e.2)
  delivered : ∀ π : Node → ℚ, (∀ v, 0 ≤ π v) → π .source = 0 → ∑ e ∈ U, d e.2 * π e.2 ≤ ∑ e ∈ U, g e * (π e.2 - π e.1)
  within : ∀ e ∈ U, f e + g e ≤ cap
  c_nonneg : ∀ v, 0 ≤ c v
  d_nonneg : ∀ v, 0 ≤ d v

/-- A set of nodes with Source, without Sink, that no arc enters. -/
structure Oneway (U : Finset (Node × Node)) (A : Node → Prop) : Prop where
  source : A .source
  sink : ¬ A .sink
  back : ∀ e ∈ U, ¬ A e.1 → ¬ A e.2

section

variable {U : Finset (Node × Node)} {cap : ℚ} {c d : Node → ℚ} {f g : Node × Node → ℚ}

open Classical in
/-- Such a set is left by exactly one arc. -/
theorem Carried.unique (h : Carried U cap c d f g) {A : Node → Prop} (hA : Oneway U A) {e e' : Node × Node}
    (he : e ∈ U) (he' : e' ∈ U) (h1 : A e.1 ∧ ¬ A e.2) (h2 : A e'.1 ∧ ¬ A e'.2) : e = e' := by
  by_contra hne
  have hf := h.flow (fun v => if A v then -1 else 0)
  simp only [hA.source, hA.sink, if_true, if_false] at hf
  have hnn : ∀ x ∈ U, (0 : ℚ) ≤ (if A x.2 then -1 else 0) - (if A x.1 then -1 else 0) := by
    intro x hx
    by_cases ha : A x.1
    · simp only [if_pos ha]; split <;> norm_num
    · simp only [if_neg ha, if_neg (hA.back x hx ha)]; norm_num
  have h3 := Finset.add_sum_erase U (fun x => ((if A x.2 then -1 else 0) - (if A x.1 then -1 else 0) : ℚ)) he
  have h4 := Finset.add_sum_erase (U.erase e) (fun x => ((if A x.2 then -1 else 0) - (if A x.1 then -1 else 0) : ℚ))
    (Finset.mem_erase.2 ⟨fun hx => hne hx.symm, he'⟩)
  have h5 : (0 : ℚ) ≤ ∑ x ∈ (U.erase e).erase e', ((if A x.2 then -1 else 0) - (if A x.1 then -1 else 0) : ℚ) :=
    Finset.sum_nonneg (fun x hx => hnn x (Finset.mem_of_mem_erase (Finset.mem_of_mem_erase hx)))
  simp only [h1.1, h1.2, h2.1, h2.2, if_true, if_false] at h3 h4
  linarith

open Classical in
/-- What is collected inside and delivered outside has to fit on the arc that leaves the set. -/
theorem Carried.bridge (h : Carried U cap c d f g) {A : Node → Prop} (hA : Oneway U A) {e : Node × Node}
    (he : e ∈ U) (h1 : A e.1 ∧ ¬ A e.2) :
    ∑ x ∈ U, (if A x.2 then c x.2 else 0) + ∑ x ∈ U, (if A x.2 then 0 else d x.2) ≤ cap := by
  have hc := h.collected (fun v => if A v then 1 else 0) (fun v => by split <;> norm_num) (by simp [hA.sink])
  have hd := h.delivered (fun v => if A v then 0 else 1) (fun v => by split <;> norm_num) (by simp [hA.source])
  have hother : ∀ x ∈ U, x ≠ e → (A x.1 ↔ A x.2) := by
    intro x hx hne
    constructor
    · intro h2
      by_contra h3
      exact hne (h.unique hA hx he ⟨h2, h3⟩ h1)
    · intro h2
      by_contra h3
      exact hA.back x hx h3 h2
  have hc' : ∑ x ∈ U, f x * ((if A x.1 then (1 : ℚ) else 0) - (if A x.2 then 1 else 0)) = f e := by
    rw [Finset.sum_eq_single e]
    · simp [h1.1, h1.2]
    · intro x hx hne
      simp [hother x hx hne]
    · intro hx; exact absurd he hx
  have hd' : ∑ x ∈ U, g x * ((if A x.2 then (0 : ℚ) else 1) - (if A x.1 then 0 else 1)) = g e := by
    rw [Finset.sum_eq_single e]
    · simp [h1.1, h1.2]
    · intro x hx hne
      simp [hother x hx hne]
    · intro hx; exact absurd he hx
  rw [hc'] at hc
  rw [hd'] at hd
  have h2 := h.within e he
  simp only [mul_ite, mul_one, mul_zero] at hc hd
  linarith

end

/-- A route `r 0, ..., r n` in the flow that is a shortest one for the weights `c + d`, and distances `δ` that show it. -/
structure Lightest (U : Finset (Node × Node)) (w : Node → ℚ) (r : ℕ → Node) (n : ℕ) (δ : Node → ℚ) : Prop where
  first : r 0 = .source
  last : r n = .sink
  arc : ∀ k < n, (r k, r (k + 1)) ∈ U
  inj : ∀ i ≤ n, ∀ j ≤ n, r i = r j → i = j
  tight : ∀ k < n, δ (r (k + 1)) = δ (r k) + w (r (k + 1))
  dist : ∀ e ∈ U, δ e.2 ≤ δ e.1 + w e.2

/-- All routes use the arc from `r k` to `r (k + 1)`. -/
def Bridge (U : Finset (Node × Node)) (r : ℕ → Node) (k : ℕ) : Prop := ∃ A, Oneway U A ∧ A (r k) ∧ ¬ A (r (k + 1))

section

variable {U : Finset (Node × Node)} {cap : ℚ} {c d w δ : Node → ℚ} {f g : Node × Node → ℚ} {r : ℕ → Node} {n : ℕ}

theorem Lightest.outside (hr : Lightest U w r n δ) {A : Node → Prop} (hA : Oneway U A) {k : ℕ} (hk : ¬ A (r k)) :
    ∀ j, k ≤ j → j ≤ n → ¬ A (r j) := by
  intro j hkj
  induction j, hkj using Nat.le_induction with
  | base => exact fun _ => hk
  | succ j _ ih => exact fun hj => hA.back _ (hr.arc j (by omega)) (ih (by omega))

theorem Lightest.inside (hr : Lightest U w r n δ) {A : Node → Prop} (hA : Oneway U A) {k : ℕ} (hkn : k ≤ n) (hk : A (r k)) :
    ∀ j ≤ k, A (r j) := by
  intro j hj
  by_contra hn
  exact hr.outside hA hn k hj hkn hk

theorem Lightest.along (hr : Lightest U w r n δ) : ∀ i j, i ≤ j → j ≤ n →
    δ (r j) = δ (r i) + ∑ k ∈ Finset.Ico (i + 1) (j + 1), w (r k) := by
  intro i j hij
  induction j, hij using Nat.le_induction with
  | base => intro _; simp
  | succ j hij ih =>
    intro hj
    rw [Finset.sum_Ico_succ_top (by omega), hr.tight j (by omega), ih (by omega)]
    ring

/-- The route is part of the flow. -/
theorem Lightest.part (hr : Lightest U w r n δ) (F : Node → ℚ) (hF : ∀ v, 0 ≤ F v) (i j : ℕ) (hi : 0 < i) (hj : j ≤ n + 1) :
    ∑ k ∈ Finset.Ico i j, F (r k) ≤ ∑ e ∈ U, F e.2 := by
  classical
  have hinj : Set.InjOn (fun k => (r (k - 1), r k)) (Finset.Ico i j : Finset ℕ) := by
    intro a ha b hb hab
    simp only [Finset.coe_Ico, Set.mem_Ico] at ha hb
    simp only [Prod.mk.injEq] at hab
    exact hr.inj a (by omega) b (by omega) hab.2
  have h1 : ∑ k ∈ Finset.Ico i j, F (r k) = ∑ e ∈ (Finset.Ico i j).image (fun k => (r (k - 1), r k)), F e.2 := by
    rw [Finset.sum_image hinj]
  rw [h1]
  refine Finset.sum_le_sum_of_subset_of_nonneg ?_ (fun e _ _ => hF _)
  intro e he
  obtain ⟨k, hk, rfl⟩ := Finset.mem_image.1 he
  rw [Finset.mem_Ico] at hk
  have := hr.arc (k - 1) (by omega)
  rwa [show k - 1 + 1 = k by omega] at this

/-- If no arc leads down across the level `τ`, the route has two bridges in a row there. -/
theorem Lightest.two_bridges (hr : Lightest U w r n δ) {inn out : Node → ℚ} (hstep : ∀ v, inn v ≤ out v)
    (hdown : ∀ e ∈ U, inn e.2 ≤ out e.1) {τ : ℚ} (hs : out .source < τ) (ht : τ ≤ inn .sink)
    (hcon : ∀ e ∈ U, inn e.2 < τ → out e.1 < τ) :
    ∃ k, k + 1 < n ∧ Bridge U r k ∧ Bridge U r (k + 1) ∧ ¬ out (r (k + 1)) < τ ∧ inn (r (k + 1)) < τ := by
  classical
  have hA : Oneway U (fun v => out v < τ) :=
    ⟨hs, not_lt.2 (ht.trans (hstep _)), fun e he hx hy => hx (hcon e he (lt_of_le_of_lt (hstep _) hy))⟩
  have hB : Oneway U (fun v => inn v < τ) :=
    ⟨lt_of_le_of_lt (hstep _) hs, not_lt.2 ht, fun e he hx hy => hx (lt_of_le_of_lt (hstep _) (hcon e he hy))⟩
  have hex : ∃ k, k ≤ n ∧ ¬ out (r k) < τ := ⟨n, le_rfl, by rw [hr.last]; exact hA.sink⟩
  obtain ⟨k0, hk0, hmin⟩ : ∃ k0, (k0 ≤ n ∧ ¬ out (r k0) < τ) ∧ ∀ m < k0, ¬ (m ≤ n ∧ ¬ out (r m) < τ) :=
    ⟨Nat.find hex, Nat.find_spec hex, fun m hm => Nat.find_min hex hm⟩
  cases k0 with
  | zero =>
    rw [hr.first] at hk0
    exact absurd hs hk0.2
  | succ k =>
    have hkA : out (r k) < τ := by
      by_contra hx
      exact hmin k (Nat.lt_succ_self k) ⟨by omega, hx⟩
    have hkn : k < n := by omega
    have hkB : inn (r (k + 1)) < τ := lt_of_le_of_lt (hdown _ (hr.arc k hkn)) hkA
    have hk1n : k + 1 < n := by
      rcases Nat.lt_or_ge (k + 1) n with hx | hx
      · exact hx
      · exfalso
        have : k + 1 = n := by omega
        rw [this, hr.last] at hkB
        exact hB.sink hkB
    exact ⟨k, hk1n, ⟨_, hA, hkA, hk0.2⟩, ⟨_, hB, hkB, fun hx => hk0.2 (hcon _ (hr.arc (k + 1) hk1n) hx)⟩, hk0.2, hkB⟩

open Classical in
/-- The sums of two bridges, sorted by where the goods are. -/
theorem two_sums (A₁ A : Node → Prop) :
    ∑ e ∈ U, (if A₁ e.2 then c e.2 else 0) + ∑ e ∈ U, (if A₁ e.2 then c e.2 else 0) +
      ∑ e ∈ U, (if (A₁ e.2 ∨ A e.2) ∧ ¬ A₁ e.2 then c e.2 + d e.2 else 0) +
      (∑ e ∈ U, (if A₁ e.2 ∨ A e.2 then 0 else d e.2) + ∑ e ∈ U, (if A₁ e.2 ∨ A e.2 then 0 else d e.2)) =
      ∑ e ∈ U, (if A₁ e.2 then c e.2 else 0) + ∑ e ∈ U, (if A₁ e.2 then 0 else d e.2) +
      (∑ e ∈ U, (if A₁ e.2 ∨ A e.2 then c e.2 else 0) + ∑ e ∈ U, (if A₁ e.2 ∨ A e.2 then 0 else d e.2)) := by
  simp only [← Finset.sum_add_distrib]
  refine Finset.sum_congr rfl (fun e _ => ?_)
  by_cases g1 : A₁ e.2
  · simp [g1]
  · by_cases g2 : A e.2
    · simp [g1, g2, add_comm]
    · simp [g1, g2]

/-- The load at one point of the route, bounded by what is on the two bridges around it. -/
theorem peak_le (F H : ℕ → ℚ) (hF : ∀ k, 0 ≤ F k) (hH : ∀ k, 0 ≤ H k) {i₁ i i₂ n : ℕ} (h1 : i₁ ≤ i) (h2 : i ≤ i₂) (h3 : i₂ ≤ n) :
    ∑ k ∈ Finset.Ico 1 (i + 1), F k + ∑ k ∈ Finset.Ico (i + 1) (n + 1), H k ≤
      ∑ k ∈ Finset.Ico 1 (i₁ + 1), F k + ∑ k ∈ Finset.Ico (i₁ + 1) (i₂ + 1), (F k + H k) +
        ∑ k ∈ Finset.Ico (i₂ + 1) (n + 1), H k := by
  rw [← Finset.sum_Ico_consecutive F (show 1 ≤ i₁ + 1 by omega) (show i₁ + 1 ≤ i + 1 by omega),
    ← Finset.sum_Ico_consecutive H (show i + 1 ≤ i₂ + 1 by omega) (show i₂ + 1 ≤ n + 1 by omega),
    ← Finset.sum_Ico_consecutive (fun k => F k + H k) (show i₁ + 1 ≤ i + 1 by omega) (show i + 1 ≤ i₂ + 1 by omega)]
  have hm2 : ∑ k ∈ Finset.Ico (i₁ + 1) (i + 1), F k ≤ ∑ k ∈ Finset.Ico (i₁ + 1) (i + 1), (F k + H k) :=
    Finset.sum_le_sum (fun k _ => by linarith [hH k])
  have hm3 : ∑ k ∈ Finset.Ico (i + 1) (i₂ + 1), H k ≤ ∑ k ∈ Finset.Ico (i + 1) (i₂ + 1), (F k + H k) :=
    Finset.sum_le_sum (fun k _ => by linarith [hF k])
  linarith

open Classical in
/-- Between two bridges with no other bridge in between, at least twice the weight of the route is visited. -/
theorem Carried.middle (h : Carried U cap c d f g) (hw : ∀ v, 0 ≤ w v) (hr : Lightest U w r n δ) {i₁ i i₂ : ℕ}
    (h1 : i₁ < i) (h2 : i < i₂) (hn : i₂ < n) (hno : ∀ k, i₁ < k → k < i₂ → ¬ Bridge U r k)
    {A₁ A₂ : Node → Prop} (hA₁ : Oneway U A₁) (hA₂ : Oneway U A₂) (hsub : ∀ v, A₁ v → A₂ v)
    (ha₁ : A₁ (r i₁)) (hb₁ : ¬ A₁ (r (i₁ + 1))) (ha₂ : A₂ (r i₂)) (hb₂ : ¬ A₂ (r (i₂ + 1))) :
    2 * (δ (r i₂) - δ (r i₁)) ≤ ∑ e ∈ U, (if A₂ e.2 ∧ ¬ A₁ e.2 then w e.2 else 0) := by
  set a := δ (r i₁) with ha
  set b := δ (r i₂) with hb
  have hab : a ≤ b := by
    have := hr.along i₁ i₂ (by omega) (by omega)
    have h3 : 0 ≤ ∑ k ∈ Finset.Ico (i₁ + 1) (i₂ + 1), w (r k) := Finset.sum_nonneg (fun k _ => hw _)
    linarith
  set out : Node → ℚ := fun v => if A₁ v then a else if A₂ v then clamp a b (δ v) else b with hout
  set inn : Node → ℚ := fun v => if A₁ v then a else if A₂ v then clamp a b (δ v - w v) else b with hinn
  have hlow : ∀ v, a ≤ out v := by
    intro v
    simp only [hout]
    split
    · exact le_rfl
    · split
      · exact le_clamp
      · exact hab
  have hstep : ∀ v, inn v ≤ out v := by
    intro v
    simp only [hout, hinn]
    split
    · exact le_rfl
    · split
      · exact clamp_mono (by linarith [hw v])
      · exact le_rfl
  have hrise : ∀ v, out v - inn v ≤ if A₂ v ∧ ¬ A₁ v then w v else 0 := by
    intro v
    simp only [hout, hinn]
    by_cases g1 : A₁ v
    · simp [g1]
    · by_cases g2 : A₂ v
      · simp only [g1, g2, if_true, if_false, not_false_eq_true, and_self]
        exact clamp_sub (hw v)
      · simp [g1, g2]
  have hr2 : ¬ A₁ (r i₂) := hr.outside hA₁ hb₁ i₂ (by omega) (by omega)
  have hdown : ∀ e ∈ U, inn e.2 ≤ out e.1 := by
    intro e he
    by_cases g1 : A₁ e.2
    · have : inn e.2 = a := by simp [hinn, g1]
      rw [this]; exact hlow _
    by_cases g2 : A₂ e.2
    · have g3 : A₂ e.1 := by
        by_contra hx
        exact hA₂.back e he hx g2
      by_cases g4 : A₁ e.1
      · have : e = (r i₁, r (i₁ + 1)) := h.unique hA₁ he (hr.arc i₁ (by omega)) ⟨g4, g1⟩ ⟨ha₁, hb₁⟩
        have h5 : inn e.2 = a := by
          simp only [hinn, if_neg g1, if_pos g2]
          rw [this]
          simp only
          rw [hr.tight i₁ (by omega), add_sub_cancel_right]
          exact clamp_left hab
        rw [h5]; exact hlow _
      · simp only [hinn, hout, if_neg g1, if_pos g2, if_neg g4, if_pos g3]
        exact clamp_mono (by linarith [hr.dist e he])
    · by_cases g3 : A₂ e.1
      · have : e = (r i₂, r (i₂ + 1)) := h.unique hA₂ he (hr.arc i₂ hn) ⟨g3, g2⟩ ⟨ha₂, hb₂⟩
        have h5 : out e.1 = b := by
          rw [this]
          simp only [hout, if_neg hr2, if_pos ha₂]
          exact clamp_right hab
        have h6 : inn e.2 = b := by simp [hinn, g1, g2]
        rw [h5, h6]
      · have g4 : ¬ A₁ e.1 := fun hx => g3 (hsub _ hx)
        simp [hinn, hout, g1, g2, g3, g4]
  have hcov : ∀ τ, a < τ → τ ≤ b → ∃ e ∈ U, inn e.2 < τ ∧ τ ≤ out e.1 := by
    intro τ ht1 ht2
    by_contra hcon
    push Not at hcon
    obtain ⟨k, hk1n, hbr1, hbr2, hkA, hkB⟩ := hr.two_bridges hstep hdown (τ := τ)
      (by simp only [hout, if_pos hA₁.source]; exact ht1)
      (by simp only [hinn, if_neg hA₂.sink, if_neg hA₁.sink]; exact ht2) hcon
    have hge : i₁ < k + 1 := by
      by_contra hx
      have := hr.inside hA₁ (by omega) ha₁ (k + 1) (by omega)
      apply hkA
      simp only [hout, if_pos this]
      exact ht1
    have hle : k + 1 ≤ i₂ := by
      by_contra hx
      have g1 := hr.outside hA₂ hb₂ (k + 1) (by omega) (by omega)
      have g2 : ¬ A₁ (r (k + 1)) := fun hy => g1 (hsub _ hy)
      simp only [hinn, if_neg g1, if_neg g2] at hkB
      linarith
    by_cases hx : i₁ < k
    · exact hno k hx (by omega) hbr1
    · exact hno (k + 1) (by omega) (by omega) hbr2
  have htel := h.flow out
  have e4 : ∑ e ∈ U, (out e.2 - inn e.2) ≤ ∑ e ∈ U, (if A₂ e.2 ∧ ¬ A₁ e.2 then w e.2 else 0) :=
    Finset.sum_le_sum (fun e _ => hrise e.2)
  have e1 : out .sink = b := by simp [hout, hA₁.sink, hA₂.sink]
  have e2 : out .source = a := by simp [hout, hA₁.source]
  rw [e1, e2] at htel
  clear_value out inn
  have hcover : b - a ≤ ∑ e ∈ U, (out e.1 - inn e.2) :=
    interval_cover (fun e : Node × Node => inn e.2) (fun e => out e.1) a U.card U b rfl hdown hcov
  have e3 : ∑ e ∈ U, (out e.2 - out e.1) = ∑ e ∈ U, (out e.2 - inn e.2) - ∑ e ∈ U, (out e.1 - inn e.2) := by
    rw [← Finset.sum_sub_distrib]
    exact Finset.sum_congr rfl (fun e _ => by ring)
  linarith

open Classical in
/-- The lightest route never carries more than the capacity. -/
theorem Carried.peak (h : Carried U cap c d f g) (hr : Lightest U (fun v => c v + d v) r n δ) {i : ℕ} (hi : i < n) :
    ∑ k ∈ Finset.Ico 1 (i + 1), c (r k) + ∑ k ∈ Finset.Ico (i + 1) (n + 1), d (r k) ≤ cap := by
  have hw : ∀ v, 0 ≤ c v + d v := fun v => add_nonneg (h.c_nonneg v) (h.d_nonneg v)
  have hb0 : Bridge U r 0 := by
    refine ⟨fun v => v = .source, ⟨rfl, by simp, fun e he _ => h.no_in e he⟩, hr.first, ?_⟩
    exact h.no_in _ (hr.arc 0 (by omega))
  have hbn : Bridge U r (n - 1) := by
    refine ⟨fun v => v ≠ .sink, ⟨by simp, by simp, fun e he hx => absurd (not_not.1 hx) (h.no_out e he)⟩,
      h.no_out _ (hr.arc (n - 1) (by omega)), ?_⟩
    rw [show n - 1 + 1 = n by omega]
    exact not_not.2 hr.last
  obtain ⟨i₁, hi₁, hB₁, hmax⟩ : ∃ i₁ ≤ i, Bridge U r i₁ ∧ ∀ k, i₁ < k → k ≤ i → ¬ Bridge U r k :=
    ⟨Nat.findGreatest (Bridge U r) i, Nat.findGreatest_le i, Nat.findGreatest_spec (Nat.zero_le i) hb0,
      fun k hk hki => Nat.findGreatest_is_greatest hk hki⟩
  have hex : ∃ k, i ≤ k ∧ Bridge U r k := ⟨n - 1, by omega, hbn⟩
  obtain ⟨i₂, hi₂, hB₂, hmin⟩ : ∃ i₂, i ≤ i₂ ∧ Bridge U r i₂ ∧ ∀ k, i ≤ k → k < i₂ → ¬ Bridge U r k :=
    ⟨Nat.find hex, (Nat.find_spec hex).1, (Nat.find_spec hex).2,
      fun k hk hki hx => Nat.find_min hex hki ⟨hk, hx⟩⟩
  have hi₂n : i₂ < n := by
    by_contra hx
    exact hmin (n - 1) (by omega) (by omega) hbn
  obtain ⟨A₁, hA₁, ha₁, hb₁⟩ := hB₁
  obtain ⟨A, hA, ha, hb⟩ := hB₂
  -- enlarge the second set by the first one
  have hA₂ : Oneway U (fun v => A₁ v ∨ A v) := by
    refine ⟨Or.inl hA₁.source, ?_, ?_⟩
    · rintro (hx | hx)
      · exact hA₁.sink hx
      · exact hA.sink hx
    · intro e he hx
      push Not at hx
      rintro (hy | hy)
      · exact hA₁.back e he hx.1 hy
      · exact hA.back e he hx.2 hy
  have hb₂ : ¬ (A₁ (r (i₂ + 1)) ∨ A (r (i₂ + 1))) := by
    rintro (hx | hx)
    · exact hr.outside hA₁ hb₁ (i₂ + 1) (by omega) (by omega) hx
    · exact hb hx
  have s1 := h.bridge hA₁ (hr.arc i₁ (by omega)) ⟨ha₁, hb₁⟩
  have s2 : ∑ e ∈ U, (if A₁ e.2 ∨ A e.2 then c e.2 else 0) + ∑ e ∈ U, (if A₁ e.2 ∨ A e.2 then 0 else d e.2) ≤ cap := by
    have h5 := h.bridge hA₂ (hr.arc i₂ hi₂n) ⟨Or.inr ha, hb₂⟩
    refine le_trans (le_of_eq ?_) h5
    congr 1 <;> refine Finset.sum_congr rfl (fun e _ => ?_) <;>
      by_cases g1 : A₁ e.2 <;> by_cases g2 : A e.2 <;> simp [g1, g2]
  -- the middle
  have hmid : 2 * (δ (r i₂) - δ (r i₁)) ≤
      ∑ e ∈ U, (if (A₁ e.2 ∨ A e.2) ∧ ¬ A₁ e.2 then c e.2 + d e.2 else 0) := by
    by_cases heq : i₁ = i₂
    · rw [heq, sub_self, mul_zero]
      exact Finset.sum_nonneg (fun e _ => by split <;> [exact hw _; exact le_rfl])
    · have hlt1 : i₁ < i := by
        by_contra hx
        have hii : i₁ = i := by omega
        exact hmin i le_rfl (by omega) (hii ▸ ⟨A₁, hA₁, ha₁, hb₁⟩)
      have hlt2 : i < i₂ := by
        by_contra hx
        have hii : i₂ = i := by omega
        exact hmax i hlt1 le_rfl (hii ▸ ⟨A, hA, ha, hb⟩)
      have hno : ∀ k, i₁ < k → k < i₂ → ¬ Bridge U r k := by
        intro k hk1 hk2
        by_cases hki : k ≤ i
        · exact hmax k hk1 hki
        · exact hmin k (by omega) hk2
      have h5 := h.middle (A₂ := fun v => A₁ v ∨ A v) hw hr hlt1 hlt2 hi₂n hno hA₁ hA₂ (fun v hv => Or.inl hv) ha₁ hb₁
        (Or.inr ha) hb₂
      refine h5.trans (le_of_eq (Finset.sum_congr rfl (fun e _ => ?_)))
      by_cases g1 : A₁ e.2 <;> by_cases g2 : A e.2 <;> simp [g1, g2]
  rw [hr.along i₁ i₂ (by omega) (by omega)] at hmid
  -- before and after
  have hpre : ∑ k ∈ Finset.Ico 1 (i₁ + 1), c (r k) ≤ ∑ e ∈ U, (if A₁ e.2 then c e.2 else 0) := by
    have h3 := hr.part (fun v => if A₁ v then c v else 0) (fun v => by split <;> [exact h.c_nonneg v; exact le_rfl])
      1 (i₁ + 1) (by omega) (by omega)
    refine le_trans (le_of_eq ?_) h3
    refine Finset.sum_congr rfl (fun k hk => ?_)
    rw [Finset.mem_Ico] at hk
    rw [if_pos (hr.inside hA₁ (by omega) ha₁ k (by omega))]
  have hpost : ∑ k ∈ Finset.Ico (i₂ + 1) (n + 1), d (r k) ≤ ∑ e ∈ U, (if A₁ e.2 ∨ A e.2 then 0 else d e.2) := by
    have h3 := hr.part (fun v => if A₁ v ∨ A v then 0 else d v) (fun v => by split <;> [exact le_rfl; exact h.d_nonneg v])
      (i₂ + 1) (n + 1) (by omega) (by omega)
    refine le_trans (le_of_eq ?_) h3
    refine Finset.sum_congr rfl (fun k hk => ?_)
    rw [Finset.mem_Ico] at hk
    rw [if_neg (hr.outside hA₂ hb₂ k (by omega) (by omega))]
  have hsum := two_sums (U := U) (c := c) (d := d) A₁ A
  have hpeak := peak_le (fun k => c (r k)) (fun k => d (r k)) (fun k => h.c_nonneg _) (fun k => h.d_nonneg _) hi₁ hi₂ hi₂n.le
  linarith

end

end Goods

end Vrpy
