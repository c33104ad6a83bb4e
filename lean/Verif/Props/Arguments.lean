import Verif.Proofs.PreSolve
import Mathlib.Tactic.Tauto

/-!
# C44: argument checks
-/

namespace Vrpy

open Spec

/-- An acceptable value of `num_stops` or `duration`: false (`None`, `0`, ...) or a positive integer. -/
def AcceptableLimit (v : PyVal) : Prop := v.truthy = false ∨ ∃ z : ℤ, v = .int z ∧ 0 < z

/-- An acceptable entry of `load_capacity`: a positive integer. -/
def PositiveInt (v : PyVal) : Prop := ∃ z : ℤ, v = .int z ∧ 0 < z

/-- The documented pricing strategies. -/
def KnownStrategy (s : String) : Prop :=
  s = "Exact" ∨ s = "BestEdges1" ∨ s = "BestEdges2" ∨ s = "BestPaths" ∨ s = "Hyper"

/-- Lists that are given have the same length. -/
def SameDimensions {α β γ : Type} (a : List α) (b : List β) (c : List γ) : Prop :=
  (a ≠ [] → b ≠ [] → a.length = b.length) ∧ (a ≠ [] → c ≠ [] → a.length = c.length) ∧
  (b ≠ [] → c ≠ [] → b.length = c.length)

private theorem acceptable_iff_stops (v : PyVal) : (v.truthy && v.notPosInt) = false ↔ AcceptableLimit v := by
  cases v <;> simp [PyVal.truthy, PyVal.notPosInt, AcceptableLimit]
  rename_i z
  tauto

private theorem acceptable_iff_duration (v : PyVal) : (v.truthy && v.notNonnegInt) = false ↔ AcceptableLimit v := by
  cases v <;> simp [PyVal.truthy, PyVal.notNonnegInt, AcceptableLimit]
  rename_i z
  constructor
  · intro h
    by_cases hz : z = 0
    · exact Or.inl hz
    · have := h hz
      right; omega
  · rintro (h | h) h' <;> omega

private theorem positiveInt_iff (v : PyVal) : v.notPosInt = false ↔ PositiveInt v := by
  cases v <;> simp [PyVal.notPosInt, PositiveInt]

private theorem known_iff (s : String) : s ∈ strategies ↔ KnownStrategy s := by
  simp [strategies, KnownStrategy]

private theorem dims_iff {α β : Type} (a : List α) (b : List β) :
    ¬ (a ≠ [] ∧ b ≠ [] ∧ a.length ≠ b.length) ↔ (a ≠ [] → b ≠ [] → a.length = b.length) := by tauto

/-- The check of one arc of a mixed fleet. -/
private def arcCheck (G : DiGraph) (K : Option Nat) (e : Node × Node) : Py Unit :=
  match (G.ed e.1 e.2).cost with
  | some (.list cs) => if some cs.length ≠ K then throw .valueError else pure ()
  | some (.scalar _) => throw .typeError
  | none => throw .keyError

private theorem arcCheck_ok (G : DiGraph) (K : Option Nat) (e : Node × Node) :
    arcCheck G K e = .ok () ↔ ∃ cs, (G.ed e.1 e.2).cost = some (.list cs) ∧ some cs.length = K := by
  unfold arcCheck
  cases h : (G.ed e.1 e.2).cost with
  | none => simp [throw, throwThe, MonadExceptOf.throw]
  | some c =>
    cases c with
    | scalar c => simp [throw, throwThe, MonadExceptOf.throw]
    | list cs =>
      by_cases h' : some cs.length = K
      · simp [h', pure, Except.pure]
      · simp [h', throw, throwThe, MonadExceptOf.throw]

private theorem check_eq (numStops : PyVal) (caps : List PyVal) (duration : PyVal) (s : String) (mixed : Bool)
    (fc : List ℚ) (G : DiGraph) (K : Option Nat) (nv : List Nat) :
    checkArguments numStops caps duration s mixed fc G K nv =
      (if (numStops.truthy && numStops.notPosInt) = true then .error .typeError else
       if ∃ v ∈ caps, v.notPosInt = true then .error .typeError else
       if (duration.truthy && duration.notNonnegInt) = true then .error .typeError else
       if s ∉ strategies then .error .valueError else
       if mixed = true then
         if caps ≠ [] ∧ nv ≠ [] ∧ caps.length ≠ nv.length then .error .valueError else
         if caps ≠ [] ∧ fc ≠ [] ∧ caps.length ≠ fc.length then .error .valueError else
         if nv ≠ [] ∧ fc ≠ [] ∧ nv.length ≠ fc.length then .error .valueError else
         G.edges.forM (arcCheck G K)
       else .ok ()) := by
  have hloop : (caps.forM fun value => if value.notPosInt then (throw .typeError : Py Unit) else pure ()) =
      if ∃ v ∈ caps, v.notPosInt = true then .error .typeError else .ok () := by
    have hc := forM_error_const caps (fun value => if value.notPosInt then (throw .typeError : Py Unit) else pure ())
      .typeError (by intro x _; by_cases h : x.notPosInt = true <;> simp [h, throw, throwThe, MonadExceptOf.throw, pure, Except.pure])
    by_cases h : ∃ v ∈ caps, v.notPosInt = true
    · rw [if_pos h]
      obtain ⟨v, hv, hb⟩ := h
      exact hc.2.2 ⟨v, hv, by simp [hb, throw, throwThe, MonadExceptOf.throw]⟩
    · rw [if_neg h, forM_ok_iff]
      intro x hx
      have : ¬ x.notPosInt = true := fun hb => h ⟨x, hx, hb⟩
      simp [this, pure, Except.pure]
  have harc : (fun e : Node × Node => (match (G.ed e.1 e.2).cost with
      | some (.list cs) => if some cs.length ≠ K then throw .valueError else pure ()
      | some (.scalar _) => throw .typeError
      | none => throw .keyError : Py Unit)) = arcCheck G K := by
    funext e; rfl
  unfold checkArguments
  rw [hloop]
  by_cases h1 : (numStops.truthy && numStops.notPosInt) = true
  · simp only [h1, if_true]; rfl
  · simp only [h1, if_false]
    by_cases h2 : ∃ v ∈ caps, v.notPosInt = true
    · simp only [if_pos h2]; rfl
    · simp only [if_neg h2]
      by_cases h3 : (duration.truthy && duration.notNonnegInt) = true
      · simp only [h3, if_true]; rfl
      · simp only [h3, if_false]
        by_cases h4 : s ∉ strategies
        · simp only [if_pos h4]; rfl
        · simp only [if_neg h4]
          by_cases h5 : mixed = true
          · simp only [if_pos h5]
            by_cases h6 : caps ≠ [] ∧ nv ≠ [] ∧ caps.length ≠ nv.length
            · simp only [if_pos h6]; rfl
            · simp only [if_neg h6]
              by_cases h7 : caps ≠ [] ∧ fc ≠ [] ∧ caps.length ≠ fc.length
              · simp only [if_pos h7]; rfl
              · simp only [if_neg h7]
                by_cases h8 : nv ≠ [] ∧ fc ≠ [] ∧ nv.length ≠ fc.length
                · simp only [if_pos h8]; rfl
                · simp only [if_neg h8]
                  rfl
          · simp only [h5]; rfl

/-- **C44, acceptance.** `check_arguments` accepts exactly: limits that are false or positive integers, positive integer
capacities, a documented strategy and, for a mixed fleet, lists of equal length and one cost per vehicle type on every
arc. -/
theorem C44_accepts_exactly (numStops : PyVal) (caps : List PyVal) (duration : PyVal) (s : String) (mixed : Bool)
    (fc : List ℚ) (G : DiGraph) (K : Option Nat) (nv : List Nat) :
    checkArguments numStops caps duration s mixed fc G K nv = .ok () ↔
      AcceptableLimit numStops ∧ (∀ v ∈ caps, PositiveInt v) ∧ AcceptableLimit duration ∧ KnownStrategy s ∧
      (mixed = true → SameDimensions caps nv fc ∧
        ∀ e ∈ G.edges, ∃ cs, (G.ed e.1 e.2).cost = some (.list cs) ∧ some cs.length = K) := by
  rw [check_eq, ← acceptable_iff_stops, ← acceptable_iff_duration, ← known_iff]
  have hcaps : (∀ v ∈ caps, PositiveInt v) ↔ ¬ ∃ v ∈ caps, v.notPosInt = true := by
    push Not
    refine forall₂_congr fun v _ => ?_
    rw [← positiveInt_iff]; simp
  rw [hcaps]
  have harcs : G.edges.forM (arcCheck G K) = .ok () ↔
      ∀ e ∈ G.edges, ∃ cs, (G.ed e.1 e.2).cost = some (.list cs) ∧ some cs.length = K := by
    rw [forM_ok_iff]
    exact forall₂_congr fun e _ => arcCheck_ok G K e
  rw [← harcs]
  simp only [SameDimensions, ← dims_iff]
  cases h1 : (numStops.truthy && numStops.notPosInt) <;> simp only [Bool.false_eq_true, if_true, if_false, reduceCtorEq,
    false_and, true_and]
  by_cases h2 : ∃ v ∈ caps, v.notPosInt = true
  · simp [h2]
  · simp only [if_neg h2, h2, not_false_eq_true, true_and]
    cases h3 : (duration.truthy && duration.notNonnegInt) <;> simp only [Bool.false_eq_true, if_true, if_false,
      reduceCtorEq, false_and, true_and]
    by_cases h4 : s ∉ strategies
    · simp [h4]
    · simp only [if_neg h4]
      cases mixed with
      | false => simpa using h4
      | true =>
        simp only [if_true, forall_const]
        by_cases h6 : caps ≠ [] ∧ nv ≠ [] ∧ caps.length ≠ nv.length
        · rw [if_pos h6]
          constructor
          · intro h; simp at h
          · intro h; exact absurd h6 (by tauto)
        · simp only [if_neg h6]
          by_cases h7 : caps ≠ [] ∧ fc ≠ [] ∧ caps.length ≠ fc.length
          · rw [if_pos h7]
            constructor
            · intro h; simp at h
            · intro h; exact absurd h7 (by tauto)
          · simp only [if_neg h7]
            by_cases h8 : nv ≠ [] ∧ fc ≠ [] ∧ nv.length ≠ fc.length
            · rw [if_pos h8]
              constructor
              · intro h; simp at h
              · intro h; exact absurd h8 (by tauto)
            · simp only [if_neg h8]
              have h4' : s ∈ strategies := not_not.1 h4
              tauto

/-- **C44, kind of error.** `TypeError` for an unacceptable limit or capacity; otherwise `ValueError` for an unknown
strategy; otherwise `ValueError` for inconsistent mixed-fleet dimensions; otherwise, for a mixed fleet, `TypeError` when
an arc has a scalar cost and no arc a list of wrong length, `ValueError` when an arc has a list of wrong length and no
arc a scalar cost. -/
theorem C44_error_kinds (numStops : PyVal) (caps : List PyVal) (duration : PyVal) (s : String) (mixed : Bool)
    (fc : List ℚ) (G : DiGraph) (K : Option Nat) (nv : List Nat) :
    ((¬ AcceptableLimit numStops ∨ (∃ v ∈ caps, ¬ PositiveInt v) ∨ ¬ AcceptableLimit duration) →
      checkArguments numStops caps duration s mixed fc G K nv = .error .typeError) ∧
    (AcceptableLimit numStops → (∀ v ∈ caps, PositiveInt v) → AcceptableLimit duration →
      (¬ KnownStrategy s → checkArguments numStops caps duration s mixed fc G K nv = .error .valueError) ∧
      (KnownStrategy s → mixed = true →
        (¬ SameDimensions caps nv fc →
          checkArguments numStops caps duration s mixed fc G K nv = .error .valueError) ∧
        (SameDimensions caps nv fc →
          ((∃ e ∈ G.edges, ∃ c, (G.ed e.1 e.2).cost = some (.scalar c)) →
            (∀ e ∈ G.edges, ∃ c, (G.ed e.1 e.2).cost = some c ∧ ∀ cs, c = .list cs → some cs.length = K) →
            checkArguments numStops caps duration s mixed fc G K nv = .error .typeError) ∧
          ((∃ e ∈ G.edges, ∃ cs, (G.ed e.1 e.2).cost = some (.list cs) ∧ some cs.length ≠ K) →
            (∀ e ∈ G.edges, ∃ cs, (G.ed e.1 e.2).cost = some (.list cs)) →
            checkArguments numStops caps duration s mixed fc G K nv = .error .valueError)))) := by
  rw [check_eq]
  have hcaps : (∀ v ∈ caps, PositiveInt v) ↔ ¬ ∃ v ∈ caps, v.notPosInt = true := by
    push Not
    refine forall₂_congr fun v _ => ?_
    rw [← positiveInt_iff]; simp
  constructor
  · intro h
    by_cases h1 : (numStops.truthy && numStops.notPosInt) = true
    · rw [if_pos h1]
    · rw [if_neg h1]
      by_cases h2 : ∃ v ∈ caps, v.notPosInt = true
      · rw [if_pos h2]
      · rw [if_neg h2]
        by_cases h3 : (duration.truthy && duration.notNonnegInt) = true
        · rw [if_pos h3]
        · exfalso
          rcases h with h | ⟨v, hv, h⟩ | h
          · exact h ((acceptable_iff_stops _).1 (by simpa using h1))
          · exact h (hcaps.2 h2 v hv)
          · exact h ((acceptable_iff_duration _).1 (by simpa using h3))
  · intro a1 a2 a3
    rw [if_neg (by rw [(acceptable_iff_stops _).2 a1]; simp), if_neg (hcaps.1 a2),
      if_neg (by rw [(acceptable_iff_duration _).2 a3]; simp)]
    constructor
    · intro hs
      rw [if_pos (fun h => hs ((known_iff s).1 h))]
    · intro hs hm
      rw [if_neg (not_not.2 ((known_iff s).2 hs)), if_pos hm]
      constructor
      · intro hd
        by_cases h6 : caps ≠ [] ∧ nv ≠ [] ∧ caps.length ≠ nv.length
        · rw [if_pos h6]
        · rw [if_neg h6]
          by_cases h7 : caps ≠ [] ∧ fc ≠ [] ∧ caps.length ≠ fc.length
          · rw [if_pos h7]
          · rw [if_neg h7]
            by_cases h8 : nv ≠ [] ∧ fc ≠ [] ∧ nv.length ≠ fc.length
            · rw [if_pos h8]
            · exact absurd ⟨(dims_iff _ _).1 h6, (dims_iff _ _).1 h7, (dims_iff _ _).1 h8⟩ hd
      · intro hd
        rw [if_neg ((dims_iff _ _).2 hd.1), if_neg ((dims_iff _ _).2 hd.2.1), if_neg ((dims_iff _ _).2 hd.2.2)]
        constructor
        · rintro ⟨e, he, c, hc⟩ hall
          refine ((forM_error_const G.edges (arcCheck G K) .typeError ?_).2).2 ⟨e, he, ?_⟩
          · intro x hx
            obtain ⟨c', hc', hl⟩ := hall x hx
            unfold arcCheck
            rw [hc']
            cases c' with
            | scalar q => right; rfl
            | list cs => left; simp [hl cs rfl, pure, Except.pure]
          · unfold arcCheck; rw [hc]; rfl
        · rintro ⟨e, he, cs, hc, hl⟩ hall
          refine ((forM_error_const G.edges (arcCheck G K) .valueError ?_).2).2 ⟨e, he, ?_⟩
          · intro x hx
            obtain ⟨c', hc'⟩ := hall x hx
            unfold arcCheck
            rw [hc']
            by_cases h : some c'.length = K
            · left; simp [h, pure, Except.pure]
            · right; simp [h, throw, throwThe, MonadExceptOf.throw]
          · unfold arcCheck; rw [hc]; simp [hl, throw, throwThe, MonadExceptOf.throw]

/-- **C44, unlimited.** `None` and `0` are accepted as limits and impose nothing: no capacity list, no duration bound,
no stop bound. -/
theorem C44_zero_and_none_mean_unlimited (v : PyVal) (hv : v = .none ∨ v = .int 0) :
    AcceptableLimit v ∧ ((Arg.one v).wrap PyVal.truthy).toList = [] ∧ active v.limit = none ∧ v.stops = none := by
  rcases hv with rfl | rfl
  · exact ⟨Or.inl rfl, rfl, rfl, rfl⟩
  · exact ⟨Or.inl rfl, rfl, by simp [PyVal.limit, active], rfl⟩

/-- Concrete cases: a float capacity is refused with `TypeError`, an unknown strategy with `ValueError`. -/
example : checkArguments .none [.other true] .none "Exact" false [] ⟨[], fun _ => {}, fun _ => [], fun _ _ => {}⟩
      (some 1) [] = .error .typeError ∧
    checkArguments .none [.int 3] (.int 0) "Best" false [] ⟨[], fun _ => {}, fun _ => [], fun _ _ => {}⟩
      (some 1) [] = .error .valueError ∧
    checkArguments (.int 2) [.int 3] (.int 0) "Exact" false [] ⟨[], fun _ => {}, fun _ => [], fun _ _ => {}⟩
      (some 1) [] = .ok () := ⟨rfl, rfl, rfl⟩

end Vrpy
