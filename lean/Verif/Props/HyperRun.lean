import Verif.Props.HyperScores
import Verif.Props.CreditCases
import Verif.Props.TimeLimit

/-!
# C87: the choices of the hyper-heuristic during a run
-/

namespace Vrpy

open Spec

namespace Spec

/-- The heuristic to take after these rounds: `BestPaths` in the first one, then one with the highest score. -/
def BestChoice (root : Nat → Nat → ℚ) (cost : ℚ) (l : List Round) (g : Heur) : Prop :=
  match l with
  | [] => g = .bestPaths
  | _ => ∀ h, scoreOf root cost l h ≤ scoreOf root cost l g

/-- In every round the heuristic was such a choice (the last round first). -/
def Follows (root : Nat → Nat → ℚ) (cost : ℚ) : List Round → Prop
  | [] => True
  | r :: l => BestChoice root cost l r.heur ∧ Follows root cost l

end Spec

namespace Solve

variable {cfg : SolveCfg} {env : Env}

/-- The rounds `L` (the last one first) are those of the run from `st`: the round with time `k` ends when the master problem is solved
again after `k` rounds of column generation; its value, the columns in that solution and the clock then are those recorded, and the
heuristic is the one that the hyper-heuristic had chosen. -/
def Observed (cfg : SolveCfg) (env : Env) (st : SolveState) (L : List (Nat × Round)) : Prop :=
  ∀ p ∈ L, ∃ s0 d s, Trace cfg env false st p.1 s0 ∧ solveMaster cfg env false s0 = .ok (d, p.2.obj, s) ∧
    s0.hyper.bind Hyper.current = some p.2.heur ∧ p.2.produced = s0.more ∧ p.2.active = distribution s ∧
    p.2.runtime = (env.clock s.tick).runtime

/-- In the rounds of column generation from `st` before the `n`-th one, the hyper-heuristic is asked in the first one and whenever
`_no_improvement` is not `run_exact`; `L` has these times. -/
def AskedAt (cfg : SolveCfg) (env : Env) (st : SolveState) (n : Nat) (L : List (Nat × Round)) : Prop :=
  (L.map Prod.fst).Pairwise (· > ·) ∧
    ∀ j < n, ∀ s, Trace cfg env false st j s → (s.noImprovement ≠ cfg.runExact ↔ j = 0 ∨ j ∈ L.map Prod.fst)

/-- The history of the hyper-heuristic after some rounds. -/
structure HasPlayed (cfg : SolveCfg) (env : Env) (s0 : SolveState) (root : Nat → Nat → ℚ) (n : Nat) (st : SolveState) (hy : Hyper)
    (cost : ℚ) (L : List (Nat × Round)) (g : Heur) : Prop where
  hyper : st.hyper = some hy
  played : Hyper.Played root cost (L.map Prod.snd) hy
  current : hy.current = some g
  first : st.bounds[s0.bounds.length]? = some cost
  bounds : ∀ p ∈ L, st.bounds[s0.bounds.length + p.1]? = some p.2.obj
  times : ∀ p ∈ L, 0 < p.1 ∧ p.1 < n
  produced : ∀ p ∈ L, p.2.produced = true
  choice : BestChoice root cost (L.map Prod.snd) g
  follows : Follows root cost (L.map Prod.snd)
  observed : Observed cfg env s0 L
  asked : AskedAt cfg env s0 n L

theorem played_step {root : Nat → Nat → ℚ} (hroot : ∀ t, (env.clock t).root = root) {s0 st st' : SolveState} {n : Nat}
    (ht : Trace cfg env false s0 n st) (hlen : st.bounds.length = s0.bounds.length + n)
    (hp : cfg.pricing = .hyper) (hit : st.iteration = n)
    (hc : (n = 0 ∧ st.hyper = some {} ∧ st.noImprovement ≠ cfg.runExact) ∨
      (n ≠ 0 ∧ ∃ hy cost L g, HasPlayed cfg env s0 root n st hy cost L g))
    (hinv : Inv st) (hm : st.more = true) (h : findColumns cfg env false st = .ok st') :
    (∃ hy cost L g, HasPlayed cfg env s0 root (n + 1) st' hy cost L g) ∧ st'.bounds.length = s0.bounds.length + (n + 1) := by
  obtain ⟨d, cost, st1, hh, st2, st3, h1, h2, h3, h4⟩ := findColumns_inv h
  obtain ⟨a1, a2, a3, a4, a5, a6, a7, a8⟩ := solveMaster_step h1
  obtain ⟨b1, b2, b3, b4, b5, b6, b7, b8, _⟩ := nextStrategy_step h2
  obtain ⟨c1, c2, c3, c4, c5, c6, c7, c8, c9, c10⟩ := count_step h4
  have a0 : st1.hyper = st.hyper := by
    simp only [solveMaster, Bool.false_eq_true, if_false] at h1
    unfold solveRelaxed at h1
    simp only at h1
    split at h1
    · simp only [Except.ok.injEq, Prod.mk.injEq] at h1
      obtain ⟨_, _, rfl⟩ := h1
      rfl
    · cases h1
  have c0 : st'.hyper = st3.hyper := by
    unfold count at h4
    simp only at h4
    split at h4
    · split at h4
      · cases h4
      · simp only [Except.ok.injEq] at h4
        subst h4
        rfl
    · simp only [Except.ok.injEq] at h4
      subst h4
      rfl
  have hinv2 : Inv st2 := ⟨by rw [b1, a1]; exact hinv.1, by rw [b2, a2, b1, a1]; exact hinv.2⟩
  obtain ⟨hinv3, _, hkept, _⟩ := vehicleLoop_step (Q := fun _ => True)
    ⟨fun _ _ _ _ _ _ _ _ _ _ _ => Or.inr trivial, fun _ _ _ _ _ _ _ => Or.inr trivial⟩
    (Or.inr fun _ => trivial) (fun k hk => List.mem_range.1 hk) hinv2 h3
  obtain ⟨hck, gr, g1, g2⟩ := vehicleLoop_labels (fun k hk => List.mem_range.1 hk) hinv2 h3
  have hb : st'.bounds = st.bounds ++ [cost] := by
    rw [c9, hkept.bounds, b4, a5]
    simp
  refine ⟨?_, by rw [hb]; simp [hlen]; omega⟩
  have hkeep : ∀ {i : Nat} {x : ℚ}, st.bounds[i]? = some x → st'.bounds[i]? = some x := by
    intro i x hx
    rw [hb, List.getElem?_append_left (List.getElem?_eq_some_iff.1 hx).1]
    exact hx
  have hnow : st'.bounds[s0.bounds.length + n]? = some cost := by
    rw [hb, ← hlen]
    simp
  -- the statement about the state before the clock is read
  suffices key : ∃ hy2 c0 L g, st2.hyper = some hy2 ∧ ∀ stx : SolveState, stx.bounds = st'.bounds →
      ∀ hyx, stx.hyper = some hyx → (hyx = hy2 ∨ hyx = { hy2 with timed := true }) →
        HasPlayed cfg env s0 root (n + 1) stx hyx c0 L g by
    obtain ⟨hy2, c0', L, g, k1, k2⟩ := key
    rw [k1] at hck
    rcases hck with hk | hk
    · exact ⟨_, _, _, _, k2 st' rfl _ (c0.trans hk) (Or.inl rfl)⟩
    · exact ⟨_, _, _, _, k2 st' rfl _ (c0.trans hk) (Or.inr rfl)⟩
  by_cases hno : st.noImprovement = cfg.runExact
  · -- exact pricing without asking
    have e2 : st2 = st1 := by
      unfold nextStrategy at h2
      rw [hp] at h2
      simp only [a4] at h2
      rw [if_neg (by simp [hno])] at h2
      simp only [Except.ok.injEq, Prod.mk.injEq] at h2
      exact h2.2.symm
    rcases hc with ⟨_, _, e⟩ | ⟨hn, hy, c0, L, g, e⟩
    · exact absurd hno e
    · refine ⟨hy, c0, L, g, by rw [e2, a0]; exact e.hyper, fun stx hsx hyx hhx hor => ?_⟩
      refine ⟨hhx, ?_, ?_, ?_, ?_, ?_, e.produced, e.choice, e.follows, e.observed, e.asked.1, ?_⟩
      · rcases hor with rfl | rfl
        · exact e.played
        · exact .touch e.played
      · rcases hor with rfl | rfl <;> exact e.current
      · rw [hsx]; exact hkeep e.first
      · intro p hpL
        rw [hsx]
        exact hkeep (e.bounds p hpL)
      · intro p hpL
        have := e.times p hpL
        omega
      · intro j hj s hs
        by_cases hjn : j = n
        · subst hjn
          cases hs.det ht
          constructor
          · intro hx
            exact absurd hno hx
          · rintro (hx | hx)
            · exact absurd hx hn
            · obtain ⟨p, hpL, rfl⟩ := List.mem_map.1 hx
              exact absurd (e.times p hpL).2 (lt_irrefl _)
        · exact e.asked.2 j (by omega) s hs
  · have hnext : nextHyper env st1 cost = .ok (hh, st2) := by
      unfold nextStrategy at h2
      rw [hp] at h2
      simp only [a4] at h2
      rwa [if_pos hno] at h2
    unfold nextHyper at hnext
    rw [a0] at hnext
    rcases hc with ⟨rfl, e1, _⟩ | ⟨hn, hy, c0, L, g, e⟩
    · rw [e1] at hnext
      simp only [a3, hit, if_true, Except.ok.injEq, Prod.mk.injEq] at hnext
      obtain ⟨rfl, rfl⟩ := hnext
      refine ⟨_, cost, [], .bestPaths, rfl, fun stx hsx hyx hhx hor => ?_⟩
      refine ⟨hhx, ?_, ?_, ?_, by simp, by simp, by simp, rfl, trivial, by simp [Observed], by simp, ?_⟩
      · rcases hor with rfl | rfl
        · exact .init
        · exact .touch .init
      · rcases hor with rfl | rfl <;> rfl
      · rw [hsx]; exact hnow
      · intro j hj s hs
        obtain rfl : j = 0 := by omega
        cases hs.det ht
        simp [hno]
    · rw [e.hyper] at hnext
      simp only [a3, hit, hn, if_false] at hnext
      cases hu : hy.update (env.clock st1.tick) cost st1.more (distribution st1) with
      | error err => simp only [hu] at hnext; cases hnext
      | ok hy' =>
        simp only [hu, Except.ok.injEq, Prod.mk.injEq] at hnext
        obtain ⟨rfl, rfl⟩ := hnext
        set r : Round := ⟨g, cost, st1.more, distribution st1, (env.clock st1.tick).runtime⟩ with hr
        have hu' : hy.update ⟨r.runtime, root⟩ r.obj r.produced r.active = .ok hy' := by
          rw [← hroot st1.tick]
          exact hu
        have hpl : Hyper.Played root c0 (((n, r) :: L).map Prod.snd) hy' := .update e.played e.current hu'
        refine ⟨_, c0, (n, r) :: L, (hy'.pick (env.pick st1.tick)).1, rfl, fun stx hsx hyx hhx hor => ?_⟩
        refine ⟨hhx, ?_, ?_, ?_, ?_, ?_, ?_, fun h' => (Hyper.C87_scores hpl).2.2.1 _ h', ⟨e.choice, e.follows⟩, ?_, ?_, ?_⟩
        · rcases hor with rfl | rfl
          · exact .pick _ hpl
          · exact .touch (.pick _ hpl)
        · rcases hor with rfl | rfl <;> rfl
        · rw [hsx]; exact hkeep e.first
        · intro p hpL
          rw [hsx]
          rcases List.mem_cons.1 hpL with rfl | hpL
          · exact hnow
          · exact hkeep (e.bounds p hpL)
        · intro p hpL
          rcases List.mem_cons.1 hpL with rfl | hpL
          · exact ⟨by simp only; omega, by simp⟩
          · have := e.times p hpL
            omega
        · intro p hpL
          rcases List.mem_cons.1 hpL with rfl | hpL
          · exact a6.trans hm
          · exact e.produced p hpL
        · intro p hpL
          rcases List.mem_cons.1 hpL with rfl | hpL
          · refine ⟨st, d, st1, ht, h1, ?_, a6, rfl, rfl⟩
            rw [e.hyper]
            exact e.current
          · exact e.observed p hpL
        · rw [List.map_cons, List.pairwise_cons]
          refine ⟨fun k hk => ?_, e.asked.1⟩
          obtain ⟨p, hpL, rfl⟩ := List.mem_map.1 hk
          exact (e.times p hpL).2
        · intro j hj s hs
          rw [List.map_cons, List.mem_cons]
          by_cases hjn : j = n
          · subst hjn
            cases hs.det ht
            simp [hno]
          · rw [e.asked.2 j (by omega) s hs]
            simp [hjn]

/-- **C87 (partial), whole runs.** In a first call of `solve()` with the hyper-heuristic and `run_exact` other than 0, after `n` rounds
without diving: the hyper-heuristic was asked in the first one and in those before which `_no_improvement` was not `run_exact`
(`AskedAt`; with the default `run_exact=1` these are all, see `C87_asked`).  Its history `L` (the last round first) is that of
the run: values of the relaxed master problem that are in `_lower_bound`, columns of the solution, and time (`Observed`); each round found a column; in each of them, and in the last one, which is not over yet, the
heuristic was `BestPaths`, if it was the first, or had the highest score according to the rounds before.  What is missing: diving.
(With `run_exact=0` the hyper-heuristic is never initialised, and in a second call neither: `C43`.) -/
theorem C87_run_partial {root : Nat → Nat → ℚ} (hroot : ∀ t, (env.clock t).root = root) {st stm : SolveState} {n : Nat}
    (hf : FirstHyper cfg st) (hr : cfg.runExact ≠ 0) (hn : n ≠ 0) (ht : Trace cfg env false st n stm) :
    ∃ hy cost L g, stm.hyper = some hy ∧ hy.current = some g ∧
      stm.bounds[st.bounds.length]? = some cost ∧ (∀ p ∈ L, stm.bounds[st.bounds.length + p.1]? = some p.2.obj) ∧
      (∀ p ∈ L, 0 < p.1 ∧ p.1 < n ∧ p.2.produced = true) ∧ Observed cfg env st L ∧ AskedAt cfg env st n L ∧
      Follows root cost (L.map Prod.snd) ∧ BestChoice root cost (L.map Prod.snd) g := by
  have key : ∀ {m : Nat} {stm : SolveState}, Trace cfg env false st m stm →
      ((m = 0 ∧ stm = st) ∨ (m ≠ 0 ∧ ∃ hy cost L g, HasPlayed cfg env st root m stm hy cost L g)) ∧
        stm.bounds.length = st.bounds.length + m := by
    intro m stm ht
    induction ht with
    | zero => exact ⟨Or.inl ⟨rfl, rfl⟩, rfl⟩
    | @snoc m st1 st2 ht hm _ h ih =>
      obtain ⟨hinv, _⟩ := labelled_trace hf.inv (labelled_start hf.labels) ht
      have hit : st1.iteration = m := by rw [ht.iteration hf.inv, hf.iteration, Nat.zero_add]
      obtain ⟨ih, hlen⟩ := ih
      have : (m = 0 ∧ st1.hyper = some {} ∧ st1.noImprovement ≠ cfg.runExact) ∨
          (m ≠ 0 ∧ ∃ hy cost L g, HasPlayed cfg env st root m st1 hy cost L g) := by
        rcases ih with ⟨rfl, rfl⟩ | ih
        · exact Or.inl ⟨rfl, hf.hyper, by rw [hf.noImprovement]; exact fun x => hr x.symm⟩
        · exact Or.inr ih
      obtain ⟨k1, k2⟩ := played_step hroot ht hlen hf.pricing hit this hinv hm h
      exact ⟨Or.inr ⟨by omega, k1⟩, k2⟩
  rcases (key ht).1 with ⟨h, _⟩ | ⟨_, hy, cost, L, g, e⟩
  · exact absurd h hn
  · exact ⟨hy, cost, L, g, e.hyper, e.current, e.first, e.bounds, fun p hp => ⟨(e.times p hp).1, (e.times p hp).2, e.produced p hp⟩,
      e.observed, e.asked, e.follows, e.choice⟩

/-- **C87, `run_exact=1`.** With the default value the hyper-heuristic is asked in every round. -/
theorem C87_asked {st stm : SolveState} {n : Nat} (hf : FirstHyper cfg st) (hr : cfg.runExact = 1)
    (ht : Trace cfg env false st n stm) : stm.noImprovement ≠ cfg.runExact := by
  rw [hr]
  rcases credited_trace hf hr ht with ⟨_, rfl⟩ | ⟨_, _, _, hc⟩
  · rw [hf.noImprovement]
    omega
  · exact hc.stuck

/-- Two rounds of a run: in the second one, where `BestPaths` has one round with a column found, `BestEdges1` has the highest score. -/
example : (rounds (exFourCfg 1) exFourEnv 2 exFourStart).map (fun st =>
    (st.hyper.bind Hyper.current, st.bounds.length, st.more)) = some (some .bestEdges1, 2, true) := by decide +kernel

example : FirstHyper (exFourCfg 1) exFourStart ∧ (exFourCfg 1).runExact = 1 ∧
    ∀ t, (exFourEnv.clock t).root = (exFourEnv.clock 0).root := ⟨exFour_first 1, rfl, fun _ => rfl⟩

end Solve

end Vrpy
