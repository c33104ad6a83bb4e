import Verif.Props.Credit
import Verif.Props.CspyBoundCases
import Verif.Proofs.ExactPaths

/-!
# C74: examples and counterexample
-/

namespace Vrpy

open Spec

namespace Solve

/-- Four customers; the first two are together. -/
def exFour : Net where
  nodes := [.source, .cust 1, .cust 2, .cust 3, .cust 4, .sink]
  succ := fun u => match u with
    | .source => [.cust 1, .cust 2, .cust 3, .cust 4]
    | .cust 1 => [.cust 2, .cust 3, .sink]
    | .cust 2 => [.cust 3, .sink]
    | .cust 3 => [.cust 4, .sink]
    | .cust 4 => [.sink]
    | _ => []
  cost := fun u v => if u = .cust 1 ∧ v = .cust 2 then [0] else [1]

/-- The round trips and the route through the first two customers. -/
def exFourPool : List Column :=
  match convertRoutes exFour [] [routeOf [.cust 1], routeOf [.cust 2], routeOf [.cust 3], routeOf [.cust 4], routeOf [.cust 1, .cust 2]] with
  | .ok l => l
  | .error _ => []

/-- Three routes, the first one that is worthwhile. -/
def exFourLabel (q : Cspy) : Cspy.Oracle := fun m _ =>
  (([[.cust 1, .cust 3], [.cust 2, .cust 3], [.cust 3, .cust 4]].map routeOf).find? (fun p =>
    decide (legSum q.weight p < 0) && decide (∀ x ∈ consecutive p, x.2 ∈ q.G.succ x.1) && q.limitsHold m p)).map
    (fun p => (legSum q.weight p, p))

/-- Dual values: optimal ones, while the last two columns are not there. -/
def exFourDual (prob : LP MVar) (v : Node) : ℚ :=
  if v = .cust 3 ∨ v = .cust 4 then 2
  else if hasColumn (.elem 7) prob then 1
  else if hasColumn (.elem 6) prob then (if v = .cust 1 then 0 else 2)
  else (if v = .cust 1 then 2 else 0)

def exFourEnv : Env where
  master := fun _ => masterOf [picking [.num 3, .num 4, .num 5]] exFourDual
  pricing := fun _ _ => { objective := none, infeasible := true, point := fun _ => 0 }
  cspy := fun _ => exFourLabel
  paths := fun _ => Net.bestPaths
  rand := fun _ _ _ => 0
  negCycle := fun _ _ => true
  timeUp := fun _ => false
  clock := fun _ => { runtime := 0, root := fun _ _ => 1 }
  pick := fun _ => 0
  solvable := fun _ _ => true

def exFourCfg (e : Nat) : SolveCfg :=
  { M := { G := exFour }, keys := [.cust 1, .cust 2, .cust 3, .cust 4], pricing := .hyper, runExact := e }

def exFourStart : SolveState := { cols := exFourPool, mcols := exFourPool, hyper := some {} }

/-- `n` rounds. -/
def rounds (cfg : SolveCfg) (env : Env) : Nat → SolveState → Option SolveState
  | 0, st => some st
  | n + 1, st => match rounds cfg env n st with
    | none => none
    | some st1 =>
      if st1.more && (decide (n = 0) || !(env.timeUp st1.tick || limitReached cfg st1)) then (findColumns cfg env false st1).toOption
      else none

theorem rounds_trace {cfg : SolveCfg} {env : Env} {n : Nat} {st stm : SolveState} (h : rounds cfg env n st = some stm) :
    Trace cfg env false st n stm := by
  induction n generalizing stm with
  | zero =>
    cases h
    exact .zero
  | succ n ih =>
    unfold rounds at h
    split at h
    · cases h
    · rename_i st1 h1
      split at h
      · rename_i hc
        simp only [Bool.and_eq_true, Bool.or_eq_true, decide_eq_true_eq, Bool.not_eq_true', Bool.or_eq_false_iff] at hc
        exact .snoc (ih h1) hc.1 hc.2 (eq_ok_of_toOption h)
      · cases h

/-- What there is to see of the credit. -/
def credit (st : SolveState) : Option (Option Heur × List Nat) × List Nat :=
  (st.hyper.map (fun h => (h.current, Heur.all.map h.added)), Heur.all.map (fun h => (labelledWith st h).length))

theorem numbered_of {cols : List Column} (h : cols.map (fun c => c.name.index) = List.range' 1 cols.length) : Numbered cols := by
  intro i c hc
  have hi : i < cols.length := (List.getElem?_eq_some_iff.1 hc).1
  have : (cols.map (fun c => c.name.index))[i]? = some c.name.index := by rw [List.getElem?_map, hc]; rfl
  rw [h, List.getElem?_range' hi] at this
  simp only [Option.some.injEq] at this
  omega

theorem exFour_first (e : Nat) : FirstHyper (exFourCfg e) exFourStart where
  pricing := rfl
  types := by simp [exFourCfg]
  inv := ⟨numbered_of (by decide +kernel), rfl⟩
  labels := rfl
  hyper := rfl
  iteration := rfl
  noImprovement := rfl

/-- After two rounds with `run_exact=1`, one column has been found by BestPaths and one by BestEdges1; the first one has been credited. -/
example : (rounds (exFourCfg 1) exFourEnv 2 exFourStart).map credit =
    some (some (some .bestEdges1, [1, 0, 0, 0]), [1, 1, 0, 0]) := by decide +kernel

/-- The hypotheses of `C43_solve_partial` hold for the state after two rounds. -/
example : FirstHyper (exFourCfg 1) exFourStart ∧ (exFourCfg 1).M.periodic = false ∧ (exFourCfg 1).M.dropPenalty = 0 ∧
    (exFourCfg 1).M.G.customers ≠ [] ∧ (∀ t, MasterSolverSound (exFourEnv.master t)) ∧
    (rounds (exFourCfg 1) exFourEnv 2 exFourStart).map (fun st => (st.more, (solveMaster (exFourCfg 1) exFourEnv false st).toOption.isSome)) =
      some (true, true) :=
  ⟨exFour_first 1, rfl, rfl, by decide, fun _ => masterOf_sound _ _, by decide +kernel⟩

theorem exFourLabel_sound (q : Cspy) : CspySound q (exFourLabel q) := by
  intro m e c path hp
  unfold exFourLabel at hp
  rw [Option.map_eq_some_iff] at hp
  obtain ⟨p, hp, he⟩ := hp
  simp only [Prod.mk.injEq] at he
  obtain ⟨rfl, rfl⟩ := he
  have hmem := List.mem_of_find?_eq_some hp
  have hprop := List.find?_some hp
  simp only [Bool.and_eq_true, decide_eq_true_eq] at hprop
  have hends : p.head? = some .source ∧ p.getLast? = some .sink ∧ p.Nodup := by
    simp only [List.map_cons, List.map_nil, List.mem_cons, List.not_mem_nil, or_false] at hmem
    rcases hmem with rfl | rfl | rfl <;> decide
  exact ⟨hends.1, hends.2.1, (along_iff _ _).2 (fun u v huv => hprop.1.2 (u, v) huv), rfl, fun _ => hends.2.2,
    Cspy.limitsHold_iff.1 hprop.2⟩

/-- **C74, where it fails.** With `run_exact=2` the third round is run with exact pricing without asking the hyper-heuristic, and
the column it finds is not credited to exact pricing: in the next round it is credited to the heuristic of the second round
(`vrpy/vrp.py:730-760`). -/
theorem C74_credit_counterexample : ∃ cfg env st stm hy, FirstHyper cfg st ∧ cfg.runExact = 2 ∧
    (∀ t, MasterSolverSound (env.master t)) ∧ (∀ t q, CspySound q (env.cspy t q)) ∧ (∀ t, PathsOk (env.paths t)) ∧
    Trace cfg env false st 3 stm ∧ stm.hyper = some hy ∧ stm.more = true ∧ hy.current = some .bestEdges1 ∧
    hy.added .exact = 0 ∧ (labelledWith stm .exact).length = 1 := by
  have h : (rounds (exFourCfg 2) exFourEnv 3 exFourStart).map (fun st => (credit st, st.more)) =
    some ((some (some .bestEdges1, [1, 0, 0, 0]), [1, 1, 0, 1]), true) := by decide +kernel
  rw [Option.map_eq_some_iff] at h
  obtain ⟨stm, hr, hc⟩ := h
  simp only [credit, Heur.all, List.map_cons, List.map_nil, Prod.mk.injEq, Option.map_eq_some_iff, List.cons.injEq, and_true] at hc
  obtain ⟨⟨⟨hy, h1, h2, h3⟩, h4⟩, h5⟩ := hc
  exact ⟨exFourCfg 2, exFourEnv, exFourStart, stm, hy, exFour_first 2, rfl, fun _ => masterOf_sound _ _,
    fun _ => exFourLabel_sound, fun _ => Net.bestPaths_ok, rounds_trace hr, h1, h5, h2, h3.2.2.2, h4.2.2.2⟩

end Solve

end Vrpy
