import Verif.Proofs.Windows
import Mathlib.Algebra.BigOperators.Group.Finset.Basic
import Mathlib.Algebra.BigOperators.Group.Finset.Piecewise
import Mathlib.Algebra.Order.BigOperators.Group.Finset

/-!
# Pickup and delivery: lone deliveries, trips for one request
-/

namespace Vrpy

open Spec

/-- If a route contains the delivery of each of its pickups and ends empty, it contains the pickup of each delivery. -/
theorem no_lone_delivery {mid : List Node} (hnd : mid.Nodup) (req : Node → Option Node) (d : Node → ℚ)
    (hinj : ∀ v v' w, req v = some w → req v' = some w → v = v') (hleaf : ∀ v w, req v = some w → req w = none)
    (hpos : ∀ v w, req v = some w → 0 < d v ∧ d w = -d v)
    (hrest : ∀ v ∈ mid, req v = none → (∀ u, req u ≠ some v) → d v = 0)
    (hclosed : ∀ v ∈ mid, ∀ w, req v = some w → w ∈ mid) (hsum : (mid.map d).sum = 0) {v w : Node} (hvw : req v = some w)
    (hw : w ∈ mid) : v ∈ mid := by
  by_contra hv
  rw [← List.sum_toFinset d hnd] at hsum
  set S := mid.toFinset with hS
  have hmem : ∀ x, x ∈ S ↔ x ∈ mid := fun x => by rw [hS, List.mem_toFinset]
  set A := S.filter (fun x => (req x).isSome) with hA
  set T := S.filter (fun x => ¬ (req x).isSome) with hT
  set partner : Node → Node := fun x => (req x).getD x with hpartner
  have hsome : ∀ x ∈ A, req x = some (partner x) ∧ x ∈ mid := by
    intro x hx
    obtain ⟨h1, h2⟩ := Finset.mem_filter.1 hx
    obtain ⟨y, hy⟩ := Option.isSome_iff_exists.1 h2
    exact ⟨by simp [hpartner, hy], (hmem x).1 h1⟩
  have hsub : A.image partner ⊆ T := by
    intro y hy
    obtain ⟨x, hx, rfl⟩ := Finset.mem_image.1 hy
    obtain ⟨h1, h2⟩ := hsome x hx
    exact Finset.mem_filter.2 ⟨(hmem _).2 (hclosed x h2 _ h1), by rw [hleaf _ _ h1]; simp⟩
  have himage : ∑ y ∈ A.image partner, d y = -∑ x ∈ A, d x := by
    rw [Finset.sum_image, ← Finset.sum_neg_distrib]
    · exact Finset.sum_congr rfl (fun x hx => (hpos x _ (hsome x hx).1).2)
    · intro x hx x' hx' he
      have h1 := (hsome x hx).1
      have h2 := (hsome x' hx').1
      rw [← he] at h2
      exact hinj _ _ _ h1 h2
  have hsplit := Finset.sum_filter_add_sum_filter_not S (fun x => (req x).isSome = true) d
  rw [← Finset.sum_sdiff hsub] at hsplit
  have hzero : ∑ y ∈ T \ A.image partner, d y = 0 := by
    have e1 : ∑ x ∈ S with (req x).isSome = true, d x = ∑ x ∈ A, d x := rfl
    rw [e1] at hsplit
    rw [himage, hsum] at hsplit
    linarith
  have hnonpos : ∀ y ∈ T \ A.image partner, d y ≤ 0 := by
    intro y hy
    obtain ⟨h1, h2⟩ := Finset.mem_sdiff.1 hy
    obtain ⟨h3, h4⟩ := Finset.mem_filter.1 h1
    have h5 : req y = none := by simpa using h4
    by_cases hu : ∀ u, req u ≠ some y
    · exact (hrest y ((hmem y).1 h3) h5 hu).le
    · push Not at hu
      obtain ⟨u, hu⟩ := hu
      obtain ⟨p1, p2⟩ := hpos u y hu
      linarith
  have hw0 := (Finset.sum_eq_zero_iff_of_nonpos hnonpos).1 hzero w (by
    refine Finset.mem_sdiff.2 ⟨Finset.mem_filter.2 ⟨(hmem w).2 hw, by rw [hleaf _ _ hvw]; simp⟩, ?_⟩
    intro hi
    obtain ⟨x, hx, he⟩ := Finset.mem_image.1 hi
    obtain ⟨h1, h2⟩ := hsome x hx
    rw [he] at h1
    exact hv (hinj _ _ _ hvw h1 ▸ h2))
  obtain ⟨p1, p2⟩ := hpos v w hvw
  linarith

/-- A trip over two customers that survives the preprocessing is on time, if the second customer needs no service time. -/
theorem pair_onTime {P0 P' : Vrp} {K : Nat} {N N3 : Net} (S : Searched P0 P' K N N3) (U : UserData P0 P' N)
    (hw : ∀ u v, v ∈ N3.succ u → ¬ TwBad (strengthened N) (u, v) ∨ (u = .source ∧ ¬ TwBad N (u, v)))
    (hser : N.service .source = 0)
    (hwin : ∀ v ∈ P0.G.nodes, v = .sink → userUpper P0.G .sink ≠ 0 → userLower P0.G v ≤ userUpper P0.G v)
    (hcw : ∀ v ∈ N.customers, userLower P0.G v ≤ userUpper P0.G v) {v w : Node} (hv : v ∈ N.customers) (hwc : w ∈ N.customers)
    (hsw : userService P0.G w = 0)
    (hr : Along (fun u v => v ∈ N3.succ u) (routeOf [v, w])) : UserOnTime P0.G (routeOf [v, w]) := by
  obtain ⟨hvn, hvs, hvt⟩ := mem_customers.1 hv
  obtain ⟨hwn, hws, hwt⟩ := mem_customers.1 hwc
  have harc1 : v ∈ N3.succ .source := hr.1
  have harc2 : w ∈ N3.succ v := hr.2.1
  have harc3 : Node.sink ∈ N3.succ w := hr.2.2.1
  have hs : userService P0.G .source = 0 := by rw [← hser]; exact (S.service _ S.wf.source_mem).symm
  have hlowS : N.lower .source = userLower P0.G .source := U.lower _ S.wf.source_mem
  have hlowv : N.lower v = userLower P0.G v := U.lower _ hvn
  have hloww : N.lower w = userLower P0.G w := U.lower _ hwn
  have hupv : N.upper v = userUpper P0.G v := U.upper _ hvn hvt
  have hupw : N.upper w = userUpper P0.G w := U.upper _ hwn hwt
  have ht1 : N.time .source v = userTime P0.G .source v := S.time _ _ (S.same.succ _ _ harc1)
  have ht2 : N.time v w = userTime P0.G v w := S.time _ _ (S.same.succ _ _ harc2)
  have ht3 : N.time w .sink = userTime P0.G w .sink := S.time _ _ (S.same.succ _ _ harc3)
  have hsv : N.service v = userService P0.G v := S.service v hvn
  have hsw' : N.service w = userService P0.G w := S.service w hwn
  have hsrc : Node.source ∉ N.customers := fun h => (mem_customers.1 h).2.1 rfl
  have hsnk : Node.sink ∉ N.customers := fun h => (mem_customers.1 h).2.2 rfl
  have hb1 : N.lower .source + N.time .source v + N.service .source ≤ N.upper v := by
    rcases hw _ _ harc1 with h | h
    · simp only [TwBad, gt_iff_lt, not_lt, strengthened, hsrc, hv, if_false, if_true] at h
      exact h.trans (min_le_left _ _)
    · simpa only [TwBad, gt_iff_lt, not_lt] using h.2
  have hb2 : max (N.lower v) (N.lower .source + N.time .source v) + N.time v w + N.service v ≤
      min (N.upper w) (N.upper .sink - N.time w .sink) := by
    rcases hw _ _ harc2 with h | h
    · simpa only [TwBad, gt_iff_lt, not_lt, strengthened, hv, hwc, if_true] using h
    · exact absurd h.1 hvs
  have hb3 : max (N.lower w) (N.lower .source + N.time .source w) + N.time w .sink + N.service w ≤ N.upper .sink := by
    rcases hw _ _ harc3 with h | h
    · simpa only [TwBad, gt_iff_lt, not_lt, strengthened, hwc, hsnk, if_true, if_false] using h
    · exact absurd h.1 hws
  rw [hlowS, ht1, hser, hupv] at hb1
  rw [hlowS, hlowv, ht1, ht2, ht3, hsv, hupw] at hb2
  rw [hlowS, hloww, ht3, hsw', hsw] at hb3
  have hb2a := hb2.trans (min_le_left _ _)
  have hb2b := hb2.trans (min_le_right _ _)
  have hb3' := le_max_left (userLower P0.G w) (userLower P0.G .source + N.time .source w)
  intro p hp
  simp only [List.cons_append, List.nil_append, userArrivals, List.mem_cons, List.not_mem_nil, or_false, hs, hsw, add_zero] at hp
  rw [max_comm (userLower P0.G v)] at hb2a hb2b
  rcases hp with rfl | rfl | rfl
  · left
    exact max_le (by linarith) (hcw v hv)
  · left
    exact max_le (by linarith) (hcw w hwc)
  · by_cases h0 : userUpper P0.G .sink = 0
    · exact Or.inr ⟨rfl, h0⟩
    left
    have hup : N.upper .sink = userUpper P0.G .sink := U.upperSink h0
    rw [hup] at hb2b hb3
    refine max_le ?_ (hwin _ (by rw [← S.userNodes]; exact S.wf.sink_mem) rfl h0)
    rw [← le_sub_iff_add_le]
    exact max_le (by linarith) (by linarith)

end Vrpy
