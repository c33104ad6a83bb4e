import Verif.Proofs.Knapsack
import Mathlib.Data.List.Perm.Subperm
import Mathlib.Tactic.NormNum

/-!
# C03, C04: the automatic bound on the number of stops
-/

namespace Vrpy

/-- **C04.** For at least two non-negative weights, `_knapsack` returns the largest number of items (positions of the
list) whose total weight is at most `capacity`. -/
theorem C04_knapsack_exact (ws : List ℤ) (hws : ∀ w ∈ ws, 0 ≤ w) (hn : 2 ≤ ws.length) (cap : Nat) :
    ∃ m, knapsack ws cap = .ok m ∧
      (∃ s : List ℤ, s.Sublist ws ∧ s.sum ≤ (cap : ℤ) ∧ s.length = m) ∧
      (∀ s : List ℤ, s.Sublist ws → s.sum ≤ (cap : ℤ) → s.length ≤ m) := by
  refine ⟨_, knapsack_eq ws hws hn cap, ?_, ?_⟩
  · obtain ⟨s, h1, h2, h3⟩ := bestR_attained ws.reverse (fun w hw => hws w (by simpa using hw)) cap
    exact ⟨s.reverse, by simpa using h1.reverse, by simpa using h2, by simpa using h3⟩
  · intro s h1 h2
    have := bestR_max ws.reverse (fun w hw => hws w (by simpa using hw)) cap s.reverse h1.reverse (by simpa using h2)
    simpa using this

example : knapsack [1, 2, 2, 3] 5 = .ok 3 := by decide

/-- The requirement of at least two items is needed: with one item the wrap-around `sol[-1]` makes the code reuse
the item (one item of weight 1 in capacity 3 "fits" 3 times). -/
theorem C04_one_item_counterexample : knapsack [1] 3 = .ok 3 := by decide

private theorem pyInt_of_nonneg {q : ℚ} (h : 0 ≤ q) : pyInt q = ⌊q⌋ := by simp [pyInt, h]

private theorem sum_floor_le (f : Node → ℚ) (S : List Node) (h : ∀ v ∈ S, 0 ≤ f v) :
    (((S.map (fun v => pyInt (f v))).sum : ℤ) : ℚ) ≤ (S.map f).sum := by
  induction S with
  | nil => simp
  | cons a S ih =>
    have ih := ih (fun v hv => h v (by simp [hv]))
    simp only [List.map_cons, List.sum_cons, Int.cast_add]
    have h1 : ((pyInt (f a) : ℤ) : ℚ) ≤ f a := by
      rw [pyInt_of_nonneg (h a (by simp))]
      exact Int.floor_le _
    linarith

private theorem length_le_knap (nodes : List Node) (f : Node → ℚ) (hf : ∀ v ∈ nodes, 0 ≤ f v)
    (cap m : Nat) (hmax : ∀ s : List ℤ, s.Sublist (nodes.map (fun v => pyInt (f v))) → s.sum ≤ (cap : ℤ) → s.length ≤ m)
    (S : List Node) (hS : S.Nodup) (hsub : ∀ v ∈ S, v ∈ nodes) (hcap : (S.map f).sum ≤ cap) : S.length ≤ m := by
  obtain ⟨l, hp, hl⟩ := hS.subperm hsub
  have h1 := hmax (l.map (fun v => pyInt (f v))) (hl.map _) (by
    have h2 := sum_floor_le f S (fun v hv => hf v (hsub v hv))
    have h3 : (l.map (fun v => pyInt (f v))).sum = (S.map (fun v => pyInt (f v))).sum := (hp.map _).sum_eq
    rw [h3]
    exact_mod_cast le_trans h2 hcap)
  simpa [hp.length_eq] using h1

private theorem knap_nodes (nodes : List Node) (f : Node → ℚ) (hf : ∀ v ∈ nodes, 0 ≤ f v) (hn : 2 ≤ nodes.length)
    (cap : Nat) : ∃ m, knapsack (nodes.map (fun v => pyInt (f v))) cap = .ok m ∧
      ∀ S : List Node, S.Nodup → (∀ v ∈ S, v ∈ nodes) → (S.map f).sum ≤ cap → S.length ≤ m := by
  obtain ⟨m, h1, _, h3⟩ := C04_knapsack_exact (nodes.map (fun v => pyInt (f v))) (by
    intro w hw
    simp only [List.mem_map] at hw
    obtain ⟨v, hv, rfl⟩ := hw
    rw [pyInt_of_nonneg (hf v hv)]
    exact Int.floor_nonneg.2 (hf v hv)) (by simpa using hn) cap
  exact ⟨m, h1, fun S hS hsub hcap => length_le_knap nodes f hf cap m h3 S hS hsub hcap⟩

/-- **C03.** Let `b` be the new number of stops.  Every set `S` of customers whose demand fits the largest capacity
(and whose collect fits too, for simultaneous distribution and collection) and that respects the user's bound has at
most `b` members; `b` is at most the user's bound; and `b` is not 0 (`0` would mean "no limit"). -/
theorem C03_stops_bound_sound (G : Net) (hsrc : Node.source ∈ G.nodes)
    (hsnk : Node.sink ∈ G.nodes) (hd : ∀ v ∈ G.nodes, 0 ≤ G.demand v)
    (hd0 : G.demand .source = 0 ∧ G.demand .sink = 0) (dc : Bool)
    (hc : dc = true → (∀ v ∈ G.nodes, 0 ≤ G.collect v) ∧ G.collect .source = 0 ∧ G.collect .sink = 0)
    (cap : Nat) (user : Option Nat) :
    ∃ b, getNumStopsUpperBound G cap user dc = .ok b ∧ 0 < b ∧ (∀ s, user = some s → s ≠ 0 → b ≤ s) ∧
      ∀ S : List Node, S.Nodup → (∀ v ∈ S, v ∈ G.nodes ∧ v ≠ .source ∧ v ≠ .sink) →
        (S.map G.demand).sum ≤ cap → (dc = true → (S.map G.collect).sum ≤ cap) →
        (∀ s, user = some s → s ≠ 0 → S.length ≤ s) → S.length ≤ b := by
  have hlen : 2 ≤ G.nodes.length := by
    have h : [Node.source, Node.sink].Subperm G.nodes := List.Nodup.subperm (by decide) (by simp [hsrc, hsnk])
    simpa using h.length_le
  obtain ⟨m1, k1, u1⟩ := knap_nodes G.nodes G.demand hd hlen cap
  have hm : ∃ m, maxNumStops G cap dc = .ok m ∧ 0 < m ∧
      ∀ S : List Node, S.Nodup → (∀ v ∈ S, v ∈ G.nodes ∧ v ≠ .source ∧ v ≠ .sink) →
        (S.map G.demand).sum ≤ cap → (dc = true → (S.map G.collect).sum ≤ cap) → S.length ≤ m := by
    have p1 : 0 < m1 := by
      have := u1 [.source] (by simp) (by simpa using hsrc) (by simp [hd0])
      simp at this; omega
    cases dc with
    | false =>
      refine ⟨m1, by simp [maxNumStops, k1], p1, ?_⟩
      intro S a b c _
      exact u1 S a (fun v hv => (b v hv).1) c
    | true =>
      obtain ⟨hc1, hc2, hc3⟩ := hc rfl
      obtain ⟨m2, k2, u2⟩ := knap_nodes G.nodes G.collect hc1 hlen cap
      have p2 : 0 < m2 := by
        have := u2 [.source] (by simp) (by simpa using hsrc) (by simp [hc2])
        simp at this; omega
      refine ⟨min m1 m2, by simp [maxNumStops, k1, k2], by omega, ?_⟩
      intro S a b c d
      have := u1 S a (fun v hv => (b v hv).1) c
      have := u2 S a (fun v hv => (b v hv).1) (d rfl)
      omega
  obtain ⟨m, e, pm, um⟩ := hm
  cases user with
  | none =>
    refine ⟨m, ?_, pm, by simp, fun S a b c d _ => um S a b c d⟩
    simp [getNumStopsUpperBound, e]
  | some s =>
    by_cases hs : s = 0
    · refine ⟨m, ?_, pm, by rintro s' h hn; cases h; exact absurd hs hn, fun S a b c d _ => um S a b c d⟩
      simp [getNumStopsUpperBound, e, hs]
    · refine ⟨min m s, ?_, by omega, ?_, ?_⟩
      · simp [getNumStopsUpperBound, e, hs]
      · rintro s' h _; cases h; omega
      · intro S a b c d f
        have := um S a b c d
        have := f s rfl hs
        omega

/-- The bound counts Source and Sink as stops: without a user bound it exceeds every capacity-feasible set by two, so
it is sound but never tight. -/
theorem C03_bound_has_slack (G : Net) (hsrc : Node.source ∈ G.nodes)
    (hsnk : Node.sink ∈ G.nodes) (hd : ∀ v ∈ G.nodes, 0 ≤ G.demand v)
    (hd0 : G.demand .source = 0 ∧ G.demand .sink = 0) (cap : Nat) :
    ∃ b, getNumStopsUpperBound G cap none false = .ok b ∧
      ∀ S : List Node, S.Nodup → (∀ v ∈ S, v ∈ G.nodes ∧ v ≠ .source ∧ v ≠ .sink) →
        (S.map G.demand).sum ≤ cap → S.length + 2 ≤ b := by
  have hlen : 2 ≤ G.nodes.length := by
    have h : [Node.source, Node.sink].Subperm G.nodes := List.Nodup.subperm (by decide) (by simp [hsrc, hsnk])
    simpa using h.length_le
  obtain ⟨m1, k1, u1⟩ := knap_nodes G.nodes G.demand hd hlen cap
  refine ⟨m1, by simp [getNumStopsUpperBound, maxNumStops, k1], ?_⟩
  intro S hS hmem hcap
  have := u1 (.source :: .sink :: S) (by
    simp only [List.nodup_cons, List.mem_cons, not_or]
    exact ⟨⟨by simp, fun h => (hmem _ h).2.1 rfl⟩, fun h => (hmem _ h).2.2 rfl, hS⟩) (by
    intro v hv
    simp only [List.mem_cons] at hv
    rcases hv with rfl | rfl | hv
    · exact hsrc
    · exact hsnk
    · exact (hmem v hv).1) (by simpa [hd0] using hcap)
  simpa using this

/-- A network with three customers of demand 2, 2 and 3. -/
def exC03 : Net where
  nodes := [.source, .cust 1, .cust 2, .cust 3, .sink]
  succ := fun _ => []
  demand := fun v => match v with | .cust 1 => 2 | .cust 2 => 2 | .cust 3 => 3 | _ => 0
  collect := fun _ => 0
  service := fun _ => 0
  lower := fun _ => 0
  upper := fun _ => 0
  freq := fun _ => 1
  request := fun _ => none
  cost := fun _ _ => [1]
  time := fun _ _ => 0

/-- The hypotheses of C03 are met by `exC03`; with capacity 5 the new bound is 4 (two customers plus two depots). -/
example : getNumStopsUpperBound exC03 5 none false = .ok 4 := by decide +kernel
example : Node.source ∈ exC03.nodes ∧ Node.sink ∈ exC03.nodes ∧
    (∀ v ∈ exC03.nodes, 0 ≤ exC03.demand v) ∧ exC03.demand .source = 0 ∧ exC03.demand .sink = 0 := by
  refine ⟨by decide, by decide, ?_, rfl, rfl⟩
  simp [exC03]

end Vrpy
