import Verif.Props.Attempts
import Verif.Props.EndToEndBoundCases

/-!
# C79: the strategy that the user names is the one that is used
-/

namespace Vrpy

/-- The names of the four ways to price, as in the documentation of `solve` (`vrpy/vrp.py:178-186`). -/
inductive Spec.Named : String → Heur → Prop
  | bestPaths : Spec.Named "BestPaths" .bestPaths
  | bestEdges1 : Spec.Named "BestEdges1" .bestEdges1
  | bestEdges2 : Spec.Named "BestEdges2" .bestEdges2
  | exact : Spec.Named "Exact" .exact

open Spec

theorem ofName_of_named {s : String} {m : Heur} (h : Named s m) : PricingMode.ofName s = .fixed m := by
  cases h <;> decide

/-- The number of equal values at the end is determined. -/
theorem stagnant_unique {bs : List ℚ} {k k' : Nat} (h : Stagnant bs k) (h' : Stagnant bs k') : k = k' := by
  have key : ∀ {k k' : Nat}, Stagnant bs k → Stagnant bs k' → ¬ k < k' := by
    rintro k k' ⟨pre, b, e, hb⟩ ⟨pre', b', e', hb'⟩ hlt
    have l1 : bs.getLast? = some b := by rw [e, List.replicate_succ']; simp
    have l2 : bs.getLast? = some b' := by rw [e', List.replicate_succ']; simp
    have hbb : b = b' := Option.some.inj (l1.symm.trans l2)
    subst hbb
    obtain ⟨j, rfl⟩ : ∃ j, k' = j + 1 + k := ⟨k' - k - 1, by omega⟩
    have : pre = pre' ++ List.replicate (j + 1) b := by
      have h3 : pre ++ List.replicate (k + 1) b = (pre' ++ List.replicate (j + 1) b) ++ List.replicate (k + 1) b := by
        rw [← e, e', List.append_assoc, List.replicate_append_replicate]
        congr 2
      exact List.append_cancel_right h3
    apply hb
    rw [this, List.replicate_succ']
    simp
  have := key h h'
  have := key h' h
  omega

namespace Solve

/-- **C79, names.** In a first call of `solve()` with a named strategy other than "Hyper", each round before diving prices with the
strategy of that name, except the rounds before which exactly the last `run_exact + 1` values of the relaxed master problem were equal
(and the first round if `run_exact` is 0): these are exact. -/
theorem C79_strategy {env : Env} {P : Vrp} {a : SolveArgs} {falsy : Node → Bool} {m : Heur} (hn : Named a.strategy m) {st stm : SolveState}
    {n : Nat} (hinv : Inv st) (h0 : st.iteration = 0) (hb : st.bounds = []) (hz : st.noImprovement = 0)
    (ht : Trace (P.solveCfg a falsy) env false st n stm) {d : Duals} {cost : ℚ} {st1 st2 : SolveState} {h : Heur}
    (h1 : solveMaster (P.solveCfg a falsy) env false stm = .ok (d, cost, st1))
    (h2 : nextStrategy (P.solveCfg a falsy) env st1 cost = .ok (h, st2)) :
    (n = 0 → h = if a.runExact = 0 then .exact else m) ∧
      (n ≠ 0 → Stagnant stm.bounds a.runExact → h = .exact) ∧
      (n ≠ 0 → ¬ Stagnant stm.bounds a.runExact → h = m) := by
  have hp : (P.solveCfg a falsy).pricing = .fixed m := ofName_of_named hn
  obtain ⟨_, hs⟩ := Trace.bounds hp hinv h0 hb ht
  obtain ⟨_, _, _, m4, _⟩ := solveMaster_step h1
  have hh : h = if stm.noImprovement = a.runExact then .exact else m := by
    unfold nextStrategy at h2
    rw [hp] at h2
    simp only [Except.ok.injEq, Prod.mk.injEq] at h2
    rw [← h2.1, m4]
    rfl
  refine ⟨?_, ?_, ?_⟩
  · rintro rfl
    cases ht
    rw [hh, hz]
    by_cases e : a.runExact = 0
    · simp [e]
    · rw [if_neg e, if_neg (fun x => e x.symm)]
  · intro hne hst
    rw [hh, if_pos (stagnant_unique (hs hne) hst)]
  · intro hne hst
    rw [hh, if_neg]
    intro e
    exact hst (e ▸ hs hne)

/-- The strategies of the rounds of a run, one after another. -/
def strategiesOf (cfg : SolveCfg) (env : Env) : Nat → SolveState → List Heur
  | 0, _ => []
  | n + 1, st =>
    match solveMaster cfg env false st with
    | .error _ => []
    | .ok (_, cost, st1) =>
      match nextStrategy cfg env st1 cost with
      | .error _ => []
      | .ok (h, _) =>
        match findColumns cfg env false st with
        | .error _ => [h]
        | .ok st' => if st'.more then h :: strategiesOf cfg env n st' else [h]

/-- … for a call of `solve()`. -/
def strategiesOfCall (w : World) (a : SolveArgs) (n : Nat) (P : Vrp) : List Heur :=
  match Obj.create P with
  | .error _ => []
  | .ok o =>
    match o.P.startSolve w.dist a.strategy a.cspy a.initialRoutes a.preassignments with
    | .error _ => []
    | .ok P' =>
      match P'.initialize P'.G.toNet w.cw 0 with
      | .ok (some (P'', cols)) => strategiesOf (P''.solveCfg a w.falsy) w.toEnv n (o.start a P'' cols)
      | _ => []

/-- Two rounds with `BestEdges2`; with `run_exact=0` each round after a change of the value is exact, and the first one. -/
example : strategiesOfCall exWorld { exArgs with strategy := "BestEdges2" } 9 exPlan = [.bestEdges2, .bestEdges2] ∧
    strategiesOfCall exWorld { exArgs with strategy := "BestEdges2", runExact := 0 } 9 exPlan = [.exact, .exact] := by
  decide +kernel

end Solve

end Vrpy
