import Verif.Proofs.Columns
import Mathlib.Algebra.BigOperators.Group.Finset.Basic
import Mathlib.Algebra.BigOperators.Group.Finset.Piecewise
import Mathlib.Algebra.Order.BigOperators.Group.Finset
import Mathlib.Data.Finset.Max

/-!
# Unit flows given by lists of arcs

A flow of one unit from Source to Sink is a simple path plus arcs that leave every node balanced; balanced arcs contain
a cycle.
-/

namespace Vrpy

open Spec

/-- Number of arcs leaving `v`. -/
def outDeg (U : List (Node × Node)) (v : Node) : Nat := U.countP (fun e => e.1 = v)

/-- Number of arcs entering `v`. -/
def inDeg (U : List (Node × Node)) (v : Node) : Nat := U.countP (fun e => e.2 = v)

/-- A flow of one unit from Source to Sink, every arc used at most once. -/
structure UnitFlow (U : List (Node × Node)) : Prop where
  nodup : U.Nodup
  balance : ∀ v, v ≠ .source → v ≠ .sink → inDeg U v = outDeg U v
  source : outDeg U .source = 1
  sink : inDeg U .sink = 1
  no_in : inDeg U .source = 0
  no_out : outDeg U .sink = 0

theorem outDeg_pos {U : List (Node × Node)} {u v : Node} (h : (u, v) ∈ U) : 0 < outDeg U u :=
  List.countP_pos_iff.2 ⟨_, h, by simp⟩

theorem inDeg_pos {U : List (Node × Node)} {u v : Node} (h : (u, v) ∈ U) : 0 < inDeg U v :=
  List.countP_pos_iff.2 ⟨_, h, by simp⟩

theorem outDeg_pos_iff {U : List (Node × Node)} {u : Node} : 0 < outDeg U u ↔ ∃ v, (u, v) ∈ U := by
  unfold outDeg
  rw [List.countP_pos_iff]
  constructor
  · rintro ⟨⟨a, b⟩, h, hu⟩; simp at hu; subst hu; exact ⟨b, h⟩
  · rintro ⟨v, h⟩; exact ⟨_, h, by simp⟩

theorem inDeg_pos_iff {U : List (Node × Node)} {v : Node} : 0 < inDeg U v ↔ ∃ u, (u, v) ∈ U := by
  unfold inDeg
  rw [List.countP_pos_iff]
  constructor
  · rintro ⟨⟨a, b⟩, h, hu⟩; simp at hu; subst hu; exact ⟨a, h⟩
  · rintro ⟨v, h⟩; exact ⟨_, h, by simp⟩

private theorem sum_countP (S : Finset Node) (f : Node × Node → Node) (U : List (Node × Node)) :
    ∑ v ∈ S, U.countP (fun e => f e = v) = U.countP (fun e => f e ∈ S) := by
  induction U with
  | nil => simp
  | cons e U ih =>
    simp only [List.countP_cons, Finset.sum_add_distrib, ih, decide_eq_true_eq, Finset.sum_ite_eq]

/-- A simple path from Source to `v` along `U`. -/
def ConnTo (U : List (Node × Node)) (v : Node) (p : List Node) : Prop :=
  p.head? = some .source ∧ p.getLast? = some v ∧ p.Nodup ∧ ∀ e ∈ consecutive p, e ∈ U

private theorem connTo_step {U : List (Node × Node)} {u v : Node} {p : List Node} (h : ConnTo U u p) (huv : (u, v) ∈ U) :
    ∃ q, ConnTo U v q := by
  obtain ⟨h1, h2, h3, h4⟩ := h
  by_cases hv : v ∈ p
  · obtain ⟨a, b, rfl⟩ := List.append_of_mem hv
    refine ⟨a ++ [v], ?_, by simp, ?_, ?_⟩
    · cases a with
      | nil => simpa using h1
      | cons x a => simpa using h1
    · exact h3.sublist (by simp)
    · intro e he
      apply h4
      rw [consecutive_append]
      exact List.mem_append_left _ he
  · obtain ⟨xs, rfl⟩ : ∃ xs, p = xs ++ [u] := by
      rcases List.eq_nil_or_concat p with rfl | ⟨xs, b, rfl⟩
      · simp at h2
      · refine ⟨xs, ?_⟩
        simp at h2
        simp [h2]
    refine ⟨(xs ++ [u]) ++ [v], ?_, by simp, ?_, ?_⟩
    · rw [List.head?_append, h1]; rfl
    · rw [List.nodup_append]
      exact ⟨h3, by simp, fun a ha b hb => by simp at hb; subst hb; exact fun hab => hv (hab ▸ ha)⟩
    · intro e he
      rw [List.append_assoc, List.singleton_append, consecutive_append_two] at he
      rcases List.mem_append.1 he with he | he
      · exact h4 e he
      · simp at he; rw [he]; exact huv

/-- The flow contains a simple path from Source to Sink. -/
theorem UnitFlow.exists_path {U : List (Node × Node)} (hU : UnitFlow U) : ∃ p, ConnTo U .sink p := by
  classical
  by_contra hno
  set S : Finset Node := (insert Node.source ((U.map Prod.fst).toFinset ∪ (U.map Prod.snd).toFinset)).filter
    (fun v => ∃ p, ConnTo U v p) with hS
  have hsource : Node.source ∈ S := by
    rw [hS, Finset.mem_filter]
    exact ⟨Finset.mem_insert_self _ _, [.source], rfl, rfl, by simp, by simp⟩
  have hsink : Node.sink ∉ S := by
    rw [hS, Finset.mem_filter]
    exact fun h => hno h.2
  have hclosed : ∀ e ∈ U, e.1 ∈ S → e.2 ∈ S := by
    rintro ⟨u, v⟩ he hu
    rw [hS, Finset.mem_filter] at hu ⊢
    obtain ⟨_, p, hp⟩ := hu
    refine ⟨?_, connTo_step hp he⟩
    refine Finset.mem_insert_of_mem (Finset.mem_union_right _ ?_)
    rw [List.mem_toFinset]
    exact List.mem_map.2 ⟨_, he, rfl⟩
  have h1 : ∑ v ∈ S, outDeg U v ≤ ∑ v ∈ S, inDeg U v := by
    unfold outDeg inDeg
    rw [sum_countP S Prod.fst U, sum_countP S Prod.snd U]
    apply List.countP_mono_left
    intro e he h
    simp only [decide_eq_true_eq] at h ⊢
    exact hclosed e he h
  have h2 : ∑ v ∈ S, inDeg U v < ∑ v ∈ S, outDeg U v := by
    apply Finset.sum_lt_sum
    · intro v hv
      by_cases hvs : v = .source
      · rw [hvs, hU.no_in]; exact Nat.zero_le _
      · exact le_of_eq (hU.balance v hvs (fun h => hsink (h ▸ hv)))
    · exact ⟨.source, hsource, by rw [hU.no_in, hU.source]; exact Nat.zero_lt_one⟩
  omega

/-- A simple path from Source to Sink is a route. -/
theorem connTo_routeOf {U : List (Node × Node)} {p : List Node} (h : ConnTo U .sink p) :
    ∃ mid, p = routeOf mid ∧ (routeOf mid).Nodup ∧ Node.source ∉ mid ∧ Node.sink ∉ mid := by
  obtain ⟨h1, h2, h3, _⟩ := h
  cases p with
  | nil => simp at h1
  | cons a t =>
    simp at h1
    subst h1
    rcases List.eq_nil_or_concat t with rfl | ⟨mid, b, rfl⟩
    · simp at h2
    · rw [List.concat_eq_append] at h2 h3 ⊢
      have hb : b = .sink := by simpa [List.getLast?_cons, List.getLast?_append] using h2
      subst hb
      refine ⟨mid, rfl, h3, ?_, ?_⟩
      · intro h
        have := (List.nodup_cons.1 h3).1
        simp [h] at this
      · intro h
        have := (List.nodup_cons.1 h3).2
        rw [List.nodup_append] at this
        exact this.2.2 _ h _ (by simp) rfl

private theorem countP_map_eq {α : Type} (f : α → Node) (l : List α) (v : Node) :
    l.countP (fun e => f e = v) = (l.map f).count v := by
  induction l with
  | nil => rfl
  | cons x l ih =>
    simp only [List.countP_cons, List.map_cons, List.count_cons, ih, decide_eq_true_eq, beq_iff_eq]

theorem outDeg_consecutive (p : List Node) (v : Node) : outDeg (consecutive p) v = p.dropLast.count v := by
  unfold outDeg consecutive
  rw [countP_map_eq, List.map_fst_zip (by simp)]

theorem inDeg_consecutive (p : List Node) (v : Node) : inDeg (consecutive p) v = p.tail.count v := by
  unfold inDeg consecutive
  rw [countP_map_eq, List.map_snd_zip (by simp)]

/-- As many arcs enter each node as leave it. -/
def Balanced (R : List (Node × Node)) : Prop := ∀ v, inDeg R v = outDeg R v

/-- `U` is the sublist `P` and the rest. -/
theorem split_perm {U P : List (Node × Node)} (hU : U.Nodup) (hP : P.Nodup) (hsub : ∀ e ∈ P, e ∈ U) :
    U.Perm (P ++ U.filter (fun e => e ∉ P)) := by
  rw [List.perm_ext_iff_of_nodup hU]
  · intro e
    simp only [List.mem_append, List.mem_filter, decide_eq_true_eq]
    constructor
    · intro h
      by_cases he : e ∈ P
      · exact Or.inl he
      · exact Or.inr ⟨h, he⟩
    · rintro (h | h)
      · exact hsub e h
      · exact h.1
  · rw [List.nodup_append]
    refine ⟨hP, hU.filter _, ?_⟩
    intro a ha b hb hab
    subst hab
    simp at hb
    exact hb.2 ha

theorem deg_split {U P : List (Node × Node)} (hU : U.Nodup) (hP : P.Nodup) (hsub : ∀ e ∈ P, e ∈ U) (v : Node) :
    outDeg U v = outDeg P v + outDeg (U.filter (fun e => e ∉ P)) v ∧
    inDeg U v = inDeg P v + inDeg (U.filter (fun e => e ∉ P)) v := by
  have h := split_perm hU hP hsub
  unfold outDeg inDeg
  constructor
  · rw [h.countP_eq, List.countP_append]
  · rw [h.countP_eq, List.countP_append]

/-- A unit flow is any of its simple routes plus balanced arcs that avoid the depots. -/
theorem UnitFlow.decompose_at {U : List (Node × Node)} (hU : UnitFlow U) {mid : List Node}
    (hp : ConnTo U .sink (routeOf mid)) (hnd : (routeOf mid).Nodup) (hm1 : Node.source ∉ mid) (hm2 : Node.sink ∉ mid) :
    (∀ e ∈ consecutive (routeOf mid), e ∈ U) ∧
      Balanced (U.filter (fun e => e ∉ consecutive (routeOf mid))) ∧
      (∀ e ∈ U.filter (fun e => e ∉ consecutive (routeOf mid)), e.1 ≠ .source ∧ e.2 ≠ .sink ∧ e.1 ≠ .sink ∧
        e.2 ≠ .source) := by
  have hsub := hp.2.2.2
  have hdeg := deg_split hU.nodup (consecutive_nodup hnd) hsub
  have hout : ∀ v, outDeg (consecutive (routeOf mid)) v = (Node.source :: mid).count v := by
    intro v
    rw [outDeg_consecutive]
    congr 1
    simp [routeOf, List.dropLast_cons_of_ne_nil]
  have hin : ∀ v, inDeg (consecutive (routeOf mid)) v = (mid ++ [Node.sink]).count v := by
    intro v
    rw [inDeg_consecutive]
    rfl
  have hs0 : outDeg (U.filter (fun e => e ∉ consecutive (routeOf mid))) .source = 0 := by
    have h1 := (hdeg .source).1
    rw [hU.source, hout, List.count_cons_self, List.count_eq_zero_of_not_mem hm1] at h1
    omega
  have hs1 : inDeg (U.filter (fun e => e ∉ consecutive (routeOf mid))) .source = 0 := by
    have h1 := (hdeg .source).2
    rw [hU.no_in] at h1
    omega
  have ht0 : inDeg (U.filter (fun e => e ∉ consecutive (routeOf mid))) .sink = 0 := by
    have h1 := (hdeg .sink).2
    rw [hU.sink, hin, List.count_append, List.count_eq_zero_of_not_mem hm2, List.count_singleton_self] at h1
    omega
  have ht1 : outDeg (U.filter (fun e => e ∉ consecutive (routeOf mid))) .sink = 0 := by
    have h1 := (hdeg .sink).1
    rw [hU.no_out] at h1
    omega
  refine ⟨hsub, ?_, ?_⟩
  · intro v
    by_cases hv : v = .source
    · subst hv; rw [hs0, hs1]
    · by_cases hv' : v = .sink
      · subst hv'; rw [ht0, ht1]
      · have h1 := (hdeg v).1
        have h2 := (hdeg v).2
        rw [hout, List.count_cons_of_ne (fun h => hv h.symm)] at h1
        rw [hin, List.count_append, List.count_singleton, if_neg (by simpa using fun h => hv' h.symm)] at h2
        have h3 := hU.balance v hv hv'
        omega
  · rintro ⟨u, v⟩ he
    refine ⟨?_, ?_, ?_, ?_⟩
    · intro h
      simp only at h; subst h
      exact absurd (outDeg_pos he) (by rw [hs0]; exact lt_irrefl _)
    · intro h
      simp only at h; subst h
      exact absurd (inDeg_pos he) (by rw [ht0]; exact lt_irrefl _)
    · intro h
      simp only at h; subst h
      exact absurd (outDeg_pos he) (by rw [ht1]; exact lt_irrefl _)
    · intro h
      simp only at h; subst h
      exact absurd (inDeg_pos he) (by rw [hs1]; exact lt_irrefl _)

/-- A unit flow is a simple route plus balanced arcs that avoid the depots. -/
theorem UnitFlow.decompose {U : List (Node × Node)} (hU : UnitFlow U) :
    ∃ mid, (routeOf mid).Nodup ∧ Node.source ∉ mid ∧ Node.sink ∉ mid ∧
      (∀ e ∈ consecutive (routeOf mid), e ∈ U) ∧
      Balanced (U.filter (fun e => e ∉ consecutive (routeOf mid))) ∧
      (∀ e ∈ U.filter (fun e => e ∉ consecutive (routeOf mid)), e.1 ≠ .source ∧ e.2 ≠ .sink ∧ e.1 ≠ .sink ∧
        e.2 ≠ .source) := by
  obtain ⟨p, hp⟩ := hU.exists_path
  obtain ⟨mid, rfl, hnd, hm1, hm2⟩ := connTo_routeOf hp
  exact ⟨mid, hnd, hm1, hm2, hU.decompose_at hp hnd hm1 hm2⟩

/-- Balanced arcs along which a rank increases: there are none. -/
theorem Balanced.eq_nil_of_rank {R : List (Node × Node)} (hR : Balanced R) (rank : Node → ℚ)
    (h : ∀ e ∈ R, rank e.1 < rank e.2) : R = [] := by
  classical
  by_contra hne
  obtain ⟨e, he, hmin⟩ := Finset.exists_min_image R.toFinset (fun e => rank e.1)
    ⟨R.head hne, by simp⟩
  rw [List.mem_toFinset] at he
  have h1 : 0 < inDeg R e.1 := by
    rw [hR e.1]
    exact outDeg_pos (v := e.2) he
  obtain ⟨u, hu⟩ := inDeg_pos_iff.1 h1
  have := hmin (u, e.1) (by rw [List.mem_toFinset]; exact hu)
  have := h _ hu
  simp only at *
  linarith

/-- A simple cycle: `a`, then `t`, then back to `a`. -/
def cycleArcs (a : Node) (t : List Node) : List (Node × Node) := consecutive (a :: t ++ [a])

private theorem grow {R : List (Node × Node)} (hR : Balanced R) (hne : R ≠ []) (n : Nat) :
    (∃ a t, (a :: t).Nodup ∧ ∀ e ∈ cycleArcs a t, e ∈ R) ∨
    ∃ xs u, (xs ++ [u]).Nodup ∧ xs.length = n ∧ (∀ e ∈ consecutive (xs ++ [u]), e ∈ R) ∧ 0 < outDeg R u ∧
      ∀ x ∈ xs, x ∈ R.map Prod.fst := by
  induction n with
  | zero =>
    obtain ⟨e, he⟩ := List.exists_mem_of_ne_nil R hne
    exact Or.inr ⟨[], e.1, by simp, rfl, by simp, outDeg_pos (v := e.2) he, by simp⟩
  | succ n ih =>
    rcases ih with h | ⟨xs, u, h1, h2, h3, h4, h5⟩
    · exact Or.inl h
    · obtain ⟨v, hv⟩ := outDeg_pos_iff.1 h4
      by_cases hmem : v ∈ xs ++ [u]
      · left
        obtain ⟨a, b, hab⟩ := List.append_of_mem hmem
        refine ⟨v, b, ?_, ?_⟩
        · rw [hab, List.nodup_append] at h1
          exact h1.2.1
        · intro e he
          have hlast : ∃ c, v :: b = c ++ [u] := by
            rcases List.eq_nil_or_concat (v :: b) with hb | ⟨c, w, hb⟩
            · cases hb
            · refine ⟨c, ?_⟩
              rw [hb, List.concat_eq_append] at hab
              have := congrArg List.getLast? hab
              rw [← List.append_assoc] at this
              simp at this
              rw [hb, this, List.concat_eq_append]
          obtain ⟨c, hc⟩ := hlast
          unfold cycleArcs at he
          rw [hc, List.append_assoc, List.singleton_append, consecutive_append_two, ← hc] at he
          rcases List.mem_append.1 he with he | he
          · apply h3
            rw [hab, consecutive_append]
            exact List.mem_append_right _ he
          · simp at he; rw [he]; exact hv
      · right
        refine ⟨xs ++ [u], v, ?_, by simp [h2], ?_, ?_, ?_⟩
        · rw [List.nodup_append]
          exact ⟨h1, by simp, fun a ha b hb => by simp at hb; subst hb; exact fun hab => hmem (hab ▸ ha)⟩
        · intro e he
          rw [List.append_assoc, List.singleton_append, consecutive_append_two] at he
          rcases List.mem_append.1 he with he | he
          · exact h3 e he
          · simp at he; rw [he]; exact hv
        · rw [← hR v]; exact inDeg_pos hv
        · intro x hx
          rcases List.mem_append.1 hx with hx | hx
          · exact h5 x hx
          · simp at hx; subst hx; exact List.mem_map.2 ⟨_, hv, rfl⟩

/-- Balanced arcs contain a simple cycle. -/
theorem Balanced.exists_cycle {R : List (Node × Node)} (hR : Balanced R) (hne : R ≠ []) :
    ∃ a t, (a :: t).Nodup ∧ ∀ e ∈ cycleArcs a t, e ∈ R := by
  rcases grow hR hne (R.length + 1) with h | ⟨xs, u, h1, h2, _, _, h5⟩
  · exact h
  · exfalso
    have := (List.nodup_append.1 h1).1.subperm h5 |>.length_le
    simp at this
    omega

theorem cycleArcs_nodup {a : Node} {t : List Node} (h : (a :: t).Nodup) : (cycleArcs a t).Nodup := by
  unfold cycleArcs consecutive
  have h1 : (((a :: t ++ [a]).dropLast.zip (a :: t ++ [a]).tail).map Prod.fst).Nodup := by
    rw [List.map_fst_zip (by simp)]
    rw [List.dropLast_concat]
    exact h
  exact List.Nodup.of_map _ h1

theorem cycleArcs_balanced (a : Node) (t : List Node) : Balanced (cycleArcs a t) := by
  intro v
  unfold cycleArcs
  rw [outDeg_consecutive, inDeg_consecutive, List.dropLast_concat, List.cons_append, List.tail_cons]
  rw [List.count_append, List.count_cons, List.count_cons, List.count_nil]
  omega

/-- If all simple cycles among the arcs `R` have positive weight, balanced nonempty arcs have positive weight. -/
theorem Balanced.weight_pos (w : Node → Node → ℚ) : ∀ (n : Nat) (R : List (Node × Node)), R.length = n → R.Nodup →
    Balanced R → R ≠ [] →
    (∀ a t, (a :: t).Nodup → (∀ e ∈ cycleArcs a t, e ∈ R) → 0 < ((cycleArcs a t).map (fun e => w e.1 e.2)).sum) →
    0 < (R.map (fun e => w e.1 e.2)).sum := by
  intro n
  induction n using Nat.strong_induction_on with
  | _ n ih =>
    intro R hn hnd hR hne hpos
    obtain ⟨a, t, hat, hsub⟩ := hR.exists_cycle hne
    have hperm := split_perm hnd (cycleArcs_nodup hat) hsub
    have hsum : (R.map (fun e => w e.1 e.2)).sum = ((cycleArcs a t).map (fun e => w e.1 e.2)).sum +
        ((R.filter (fun e => e ∉ cycleArcs a t)).map (fun e => w e.1 e.2)).sum := by
      rw [(hperm.map _).sum_eq, List.map_append, List.sum_append]
    rw [hsum]
    have hc := hpos a t hat hsub
    by_cases hrest : R.filter (fun e => e ∉ cycleArcs a t) = []
    · rw [hrest]; simpa using hc
    · have hlt : (R.filter (fun e => e ∉ cycleArcs a t)).length < n := by
        have := hperm.length_eq
        rw [List.length_append] at this
        have h0 : 0 < (cycleArcs a t).length := by
          unfold cycleArcs consecutive
          simp
        omega
      have := ih _ hlt _ rfl (hnd.filter _) (by
        intro v
        have h1 := deg_split hnd (cycleArcs_nodup hat) hsub v
        have h2 := cycleArcs_balanced a t v
        have h3 := hR v
        omega) hrest (by
        intro a' t' h1 h2
        exact hpos a' t' h1 (fun e he => (List.mem_filter.1 (h2 e he)).1))
      linarith

/-- If no simple cycle among the arcs `R` has negative weight, balanced arcs have nonnegative weight. -/
theorem Balanced.weight_nonneg (w : Node → Node → ℚ) : ∀ (n : Nat) (R : List (Node × Node)), R.length = n → R.Nodup →
    Balanced R →
    (∀ a t, (a :: t).Nodup → (∀ e ∈ cycleArcs a t, e ∈ R) → 0 ≤ ((cycleArcs a t).map (fun e => w e.1 e.2)).sum) →
    0 ≤ (R.map (fun e => w e.1 e.2)).sum := by
  intro n
  induction n using Nat.strong_induction_on with
  | _ n ih =>
    intro R hn hnd hR hpos
    by_cases hne : R = []
    · simp [hne]
    obtain ⟨a, t, hat, hsub⟩ := hR.exists_cycle hne
    have hperm := split_perm hnd (cycleArcs_nodup hat) hsub
    have hsum : (R.map (fun e => w e.1 e.2)).sum = ((cycleArcs a t).map (fun e => w e.1 e.2)).sum +
        ((R.filter (fun e => e ∉ cycleArcs a t)).map (fun e => w e.1 e.2)).sum := by
      rw [(hperm.map _).sum_eq, List.map_append, List.sum_append]
    rw [hsum]
    have hc := hpos a t hat hsub
    have hlt : (R.filter (fun e => e ∉ cycleArcs a t)).length < n := by
      have := hperm.length_eq
      rw [List.length_append] at this
      have h0 : 0 < (cycleArcs a t).length := by
        unfold cycleArcs consecutive
        simp
      omega
    have := ih _ hlt _ rfl (hnd.filter _) (by
      intro v
      have h1 := deg_split hnd (cycleArcs_nodup hat) hsub v
      have h2 := cycleArcs_balanced a t v
      have h3 := hR v
      omega) (by
      intro a' t' h1 h2
      exact hpos a' t' h1 (fun e he => (List.mem_filter.1 (h2 e he)).1))
    linarith

end Vrpy
