import Verif.Proofs.PreSolve
import Mathlib.Tactic.Linarith

/-!
# C49: the feasibility check of `solve()`
-/

namespace Vrpy

open Spec

/-- `p` is a walk from `u` to `v` in the network. -/
def Spec.IsWalk (G : Net) (u v : Node) (p : List Node) : Prop :=
  p.head? = some u ∧ p.getLast? = some v ∧ Along (fun a b => b ∈ G.succ a) p

/-- `t` is the travel time of a fastest walk from `u` to `v`: the contract of
`networkx.shortest_path_length(G, u, v, weight="time")`. -/
def Spec.IsFastest (G : Net) (u v : Node) (t : ℚ) : Prop :=
  (∃ p, IsWalk G u v p ∧ travel G p = t) ∧ ∀ p, IsWalk G u v p → t ≤ travel G p

/-- Some demand does not fit into any vehicle. -/
def Spec.TooLarge (caps : List ℚ) (G : Net) : Prop := caps ≠ [] ∧ ∃ v ∈ G.nodes, ∀ c ∈ caps, c < G.demand v

/-- A customer no vehicle can visit and return from in time, whatever way it goes. -/
def Spec.TooFar (dur : Option ℚ) (G : Net) : Prop :=
  ∃ d, dur = some d ∧ d ≠ 0 ∧ ∃ v ∈ G.nodes, ¬ v.isDepot ∧
    ∀ p q, IsWalk G .source v p → IsWalk G v .sink q → d < travel G p + travel G q

private theorem foldl_max_lt (cs : List ℚ) (c x : ℚ) : cs.foldl max c < x ↔ ∀ y ∈ c :: cs, y < x := by
  induction cs generalizing c with
  | nil => simp
  | cons a cs ih => rw [List.foldl_cons, ih]; simp [and_assoc]

private theorem tooFar_iff {G : Net} {v : Node} {d t1 t2 : ℚ} (h1 : IsFastest G .source v t1)
    (h2 : IsFastest G v .sink t2) :
    t2 + t1 > d ↔ ∀ p q, IsWalk G .source v p → IsWalk G v .sink q → d < travel G p + travel G q := by
  constructor
  · intro h p q hp hq
    have a := h1.2 p hp
    have b := h2.2 q hq
    linarith
  · intro h
    obtain ⟨p, hp, rfl⟩ := h1.1
    obtain ⟨q, hq, rfl⟩ := h2.1
    have := h p q hp hq
    linarith

/-- **C49.** `check_feasibility` raises `ValueError` exactly when some demand exceeds every capacity, or a duration is
set and some customer cannot be reached and left within it; in all other cases it passes. -/
theorem C49_feasibility_check (caps : List ℚ) (dur : Option ℚ) (dist : Node → Node → ℚ) (G : Net)
    (hdist : ∀ v ∈ G.nodes, ¬ v.isDepot → IsFastest G .source v (dist .source v) ∧ IsFastest G v .sink (dist v .sink)) :
    checkFeasibility caps dur dist G =
      open Classical in if TooLarge caps G ∨ TooFar dur G then .error .valueError else .ok () := by
  classical
  have hload : checkDemands caps G = if TooLarge caps G then .error .valueError else .ok () := by
    cases caps with
    | nil => simp [TooLarge, checkDemands]
    | cons c cs =>
      unfold checkDemands
      have hc := forM_error_const G.nodes
        (fun v => if G.demand v > cs.foldl max c then (.error .valueError : Py Unit) else .ok ()) .valueError
        (by intro x _; split <;> simp)
      by_cases h : TooLarge (c :: cs) G
      · rw [if_pos h]
        obtain ⟨_, v, hv, hall⟩ := h
        exact hc.2.2 ⟨v, hv, by rw [if_pos ((foldl_max_lt cs c _).2 hall)]⟩
      · rw [if_neg h]
        simp only [forM_ok_iff]
        intro v hv
        rw [if_neg]
        intro hlt
        exact h ⟨by simp, v, hv, (foldl_max_lt cs c _).1 hlt⟩
  have hdur : checkDurations dur dist G = if TooFar dur G then .error .valueError else .ok () := by
    unfold checkDurations
    cases hd : active dur with
    | none =>
      rw [if_neg]
      rintro ⟨d, h1, h2, _⟩
      rw [active_eq_some.2 ⟨h1, h2⟩] at hd
      cases hd
    | some d =>
      obtain ⟨h1, h2⟩ := active_eq_some.1 hd
      have hc := forM_error_const G.nodes
        (fun v => if !v.isDepot ∧ dist v .sink + dist .source v > d then (.error .valueError : Py Unit) else .ok ())
        .valueError (by intro x _; split <;> simp)
      simp only
      by_cases h : TooFar dur G
      · rw [if_pos h]
        obtain ⟨d', h1', _, v, hv, hdep, hfar⟩ := h
        rw [h1] at h1'
        cases h1'
        have := hdist v hv hdep
        exact hc.2.2 ⟨v, hv, by rw [if_pos ⟨by simpa using hdep, (tooFar_iff this.1 this.2).2 hfar⟩]⟩
      · rw [if_neg h]
        simp only [forM_ok_iff]
        intro v hv
        rw [if_neg]
        rintro ⟨hdep, hlt⟩
        have hdep' : ¬ v.isDepot := by simpa using hdep
        have := hdist v hv hdep'
        exact h ⟨d, h1, h2, v, hv, hdep', (tooFar_iff this.1 this.2).1 hlt⟩
  unfold checkFeasibility
  rw [hdur, hload]
  by_cases a : TooLarge caps G <;> by_cases b : TooFar dur G <;> simp [a, b, bind, Except.bind]

/-- The check decides whether `solve()` goes on: a successful pre-processing has met neither condition. -/
theorem C49_solve_passes {dist : DistOracle} {strategy : String} {cspy : Bool} {P P' : Vrp}
    (h : P.preSolve dist strategy cspy = .ok P') (N : Net) (hN : P'.H = some N)
    (hdist : ∀ v ∈ N.nodes, ¬ v.isDepot → IsFastest N .source v (dist N .source v) ∧ IsFastest N v .sink (dist N v .sink)) :
    ¬ TooLarge (capacities P.loadCapacity.toList) N ∧ ¬ TooFar P.duration.limit N := by
  obtain ⟨G1, N', N1, N2, N3, S⟩ := preSolve_inv h
  have : P'.H = some N' := by rw [S.result]
  rw [hN] at this
  cases this
  have hf := S.feasible
  rw [C49_feasibility_check _ _ _ _ hdist] at hf
  split at hf
  · cases hf
  · rename_i hn
    exact ⟨fun a => hn (Or.inl a), fun b => hn (Or.inr b)⟩

/-- Two customers, one of them far away: 10 to go there, 10 to come back; the other one is 3 away. -/
private def exC49 : Net where
  nodes := [.source, .cust 1, .cust 2, .sink]
  succ := fun u => match u with
    | .source => [.cust 1, .cust 2]
    | .cust 1 => [.cust 2, .sink]
    | .cust 2 => [.sink]
    | _ => []
  demand := fun v => match v with | .cust 1 => 4 | .cust 2 => 7 | _ => 0
  time := fun u v => match u, v with
    | .source, .cust 2 => 10 | .cust 2, .sink => 10 | .cust 1, .cust 2 => 5 | _, _ => 3

/-- With the fastest times (8 to customer 2 through customer 1) the check passes for duration 18 and capacity 7, and
fails for duration 17, and for capacity 6. -/
example :
    let dist : Node → Node → ℚ := fun u v => match u, v with
      | .source, .cust 1 => 3 | .source, .cust 2 => 8 | .cust 1, .sink => 3 | .cust 2, .sink => 10 | _, _ => 0
    checkFeasibility [5, 7] (some 18) dist exC49 = .ok () ∧
    checkFeasibility [5, 7] (some 17) dist exC49 = .error .valueError ∧
    checkFeasibility [5, 6] none dist exC49 = .error .valueError := by decide +kernel

/-- 8 is the time of a fastest walk from Source to customer 2, so the hypothesis of the theorem can be met. -/
example : IsFastest exC49 .source (.cust 2) 8 := by
  refine ⟨⟨[.source, .cust 1, .cust 2], ⟨rfl, rfl, by simp [Along, exC49]⟩, by decide +kernel⟩, ?_⟩
  rintro p ⟨h1, h2, h3⟩
  match p, h1 with
  | [.source], _ => simp at h2
  | .source :: x :: rest, _ =>
    have hx : x ∈ exC49.succ .source := h3.1
    simp only [exC49, List.mem_cons, List.not_mem_nil, or_false] at hx
    rcases hx with rfl | rfl
    · match rest with
      | [] => simp at h2
      | y :: rest =>
        have hy : y ∈ exC49.succ (.cust 1) := h3.2.1
        simp only [exC49, List.mem_cons, List.not_mem_nil, or_false] at hy
        rcases hy with rfl | rfl
        · match rest with
          | [] => decide +kernel
          | z :: rest =>
            have hz : z ∈ exC49.succ (.cust 2) := h3.2.2.1
            simp only [exC49, List.mem_cons, List.not_mem_nil, or_false] at hz
            subst hz
            match rest with
            | [] => simp at h2
            | w :: rest => have hw : w ∈ exC49.succ .sink := h3.2.2.2.1; simp [exC49] at hw
        · match rest with
          | [] => simp at h2
          | w :: rest => have hw : w ∈ exC49.succ .sink := h3.2.2.1; simp [exC49] at hw
    · match rest with
      | [] => decide +kernel
      | z :: rest =>
        have hz : z ∈ exC49.succ (.cust 2) := h3.2.1
        simp only [exC49, List.mem_cons, List.not_mem_nil, or_false] at hz
        subst hz
        match rest with
        | [] => simp at h2
        | w :: rest => have hw : w ∈ exC49.succ .sink := h3.2.2.1; simp [exC49] at hw

end Vrpy
