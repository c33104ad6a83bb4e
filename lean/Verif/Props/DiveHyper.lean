import Verif.Props.CreditCases
import Verif.Props.Attempts

/-!
# C80: the hyper-heuristic while diving

Every dive restarts the hyper-heuristic with the objective value just obtained and with BestPaths as current heuristic
(`vrpy/vrp.py:549-555`, `vrpy/hyper_heuristic.py:107-111`), and the update that follows in the same round compares this value
with itself.
-/

namespace Vrpy

open Spec

namespace Solve

variable {cfg : SolveCfg} {env : Env}

/-- What `m` updates while diving do: whatever heuristics were chosen, all of them are booked on BestPaths, no decrease of the
objective is ever seen, and the learning rate falls. -/
structure _root_.Vrpy.Spec.Unlearned (s s' : Hyper) (m : Nat) : Prop where
  others : ∀ h, h ≠ .bestPaths → s'.iterations h = s.iterations h ∧ s'.added h = s.added h
  uses : s'.iterations .bestPaths = s.iterations .bestPaths + m
  added : s'.added .bestPaths = s.added .bestPaths + m
  decrease : s'.totalDecrease = s.totalDecrease ∧ s'.objDecrease = s.objDecrease
  theta : s'.theta = max (s.theta - (m : ℚ) / 10) (1 / 10)

theorem _root_.Vrpy.Spec.Unlearned.zero {s s' : Hyper} (h1 : s'.iterations = s.iterations) (h2 : s'.added = s.added)
    (h3 : s'.totalDecrease = s.totalDecrease) (h4 : s'.objDecrease = s.objDecrease) (h5 : s'.theta = s.theta)
    (h : 1 / 10 ≤ s.theta) : Unlearned s s' 0 where
  others := fun _ _ => by rw [h1, h2]; exact ⟨rfl, rfl⟩
  uses := by rw [h1]; rfl
  added := by rw [h2]; rfl
  decrease := ⟨h3, h4⟩
  theta := by rw [h5, max_eq_left (by simpa using h)]; simp

theorem _root_.Vrpy.Spec.Unlearned.floor {s s' : Hyper} {m : Nat} (h : Unlearned s s' m) : 1 / 10 ≤ s'.theta := by
  rw [h.theta]; exact le_max_right _ _

theorem _root_.Vrpy.Spec.Unlearned.trans {s s' s'' : Hyper} {m n : Nat} (h1 : Unlearned s s' m) (h2 : Unlearned s' s'' n) :
    Unlearned s s'' (m + n) where
  others := fun h hh => ⟨(h2.others h hh).1.trans (h1.others h hh).1, (h2.others h hh).2.trans (h1.others h hh).2⟩
  uses := by rw [h2.uses, h1.uses]; omega
  added := by rw [h2.added, h1.added]; omega
  decrease := ⟨h2.decrease.1.trans h1.decrease.1, h2.decrease.2.trans h1.decrease.2⟩
  theta := by
    rw [h2.theta, h1.theta]
    push_cast
    have hn : (0 : ℚ) ≤ (n : ℚ) / 10 := by positivity
    rcases le_total (s.theta - (m : ℚ) / 10) (1 / 10) with h | h
    · rw [max_eq_right h, max_eq_right (by linarith), max_eq_right (by linarith)]
    · rw [max_eq_left h]
      congr 1
      ring

/-- One update right after `init` with the same objective value. -/
theorem unlearned_update {s s' : Hyper} {c : Hyper.Clock} {obj : ℚ} {a : Active}
    (hs : (s.init obj).update c obj true a = .ok s') :
    Unlearned s s' 1 := by
  obtain ⟨h, t, hc, hP, _, rfl⟩ := Hyper.update_ok hs
  have hb : h = .bestPaths := by simpa [Hyper.init] using hc.symm
  subst hb
  have hd := hP.outcome obj rfl
  refine ⟨fun x hx => ⟨?_, ?_⟩, ?_, ?_, hP.level rfl, ?_⟩
  · simp only
    rw [hP.iterations, if_neg hx]
    rfl
  · simp only
    rw [hP.added, if_neg (fun hh => hx hh.1)]
    rfl
  · simp only
    rw [hP.iterations, if_pos rfl]
    rfl
  · simp only
    rw [hP.added, if_pos ⟨rfl, rfl⟩]
    rfl
  · simp only [Hyper.newTheta, hd.1, lt_irrefl, decide_false, Bool.false_and, Bool.false_eq_true, if_false, Hyper.step]
    rw [hP.theta]
    simp [Hyper.init]

/-- One round of diving. -/
theorem unlearned_step {st st' : SolveState} {hy : Hyper} (hinv : Inv st) (hy0 : st.hyper = some hy) (ht : 1 / 10 ≤ hy.theta)
    (hm : st.more = true) (h : findColumns cfg env true st = .ok st') :
    ∃ hy' m, st'.hyper = some hy' ∧ m ≤ 1 ∧ Unlearned hy hy' m := by
  obtain ⟨d, cost, st1, hh, st2, st3, h1, h2, h3, h4⟩ := findColumns_inv h
  obtain ⟨a1, a2, a3, _, _, a6, _⟩ := solveMaster_step h1
  obtain ⟨b1, b2, _⟩ := nextStrategy_step h2
  have a0 : st1.hyper = some (hy.init cost) := by
    simp only [solveMaster, if_true] at h1
    unfold solveDive at h1
    simp only at h1
    split at h1
    · cases h1
    · simp only [Except.ok.injEq, Prod.mk.injEq] at h1
      obtain ⟨_, rfl, rfl⟩ := h1
      simp [hy0]
  have c0 : st'.hyper = st3.hyper := by
    unfold count at h4
    simp only at h4
    split at h4
    · split at h4
      · cases h4
      · simp only [Except.ok.injEq] at h4
        subst h4
        rfl
    · simp only [Except.ok.injEq] at h4
      subst h4
      rfl
  have hinv2 : Inv st2 := ⟨by rw [b1, a1]; exact hinv.1, by rw [b2, a2, b1, a1]; exact hinv.2⟩
  obtain ⟨hck, _⟩ := vehicleLoop_labels (fun k hk => List.mem_range.1 hk) hinv2 h3
  have hzero : Unlearned hy (hy.init cost) 0 := .zero rfl rfl rfl rfl rfl ht
  have key : ∃ hy2 m, st2.hyper = some hy2 ∧ m ≤ 1 ∧ Unlearned hy hy2 m := by
    have hstay : st2.hyper = st1.hyper → ∃ hy2 m, st2.hyper = some hy2 ∧ m ≤ 1 ∧ Unlearned hy hy2 m := fun he =>
      ⟨_, 0, he.trans a0, by omega, hzero⟩
    unfold nextStrategy at h2
    split at h2
    · split at h2
      · unfold nextHyper at h2
        rw [a0] at h2
        simp only at h2
        split at h2
        · simp only [Except.ok.injEq, Prod.mk.injEq] at h2
          obtain ⟨_, rfl⟩ := h2
          exact ⟨_, 0, rfl, by omega, hzero⟩
        · split at h2
          · cases h2
          · rename_i hy' hu
            simp only [Except.ok.injEq, Prod.mk.injEq] at h2
            obtain ⟨_, rfl⟩ := h2
            rw [a6, hm] at hu
            have hU := unlearned_update hu
            exact ⟨_, 1, rfl, le_refl _, hU.trans (s'' := (hy'.pick (env.pick st1.tick)).2) (n := 0) (.zero rfl rfl rfl rfl rfl hU.floor)⟩
      · simp only [Except.ok.injEq, Prod.mk.injEq] at h2
        exact hstay (by rw [h2.2])
    · simp only [Except.ok.injEq, Prod.mk.injEq] at h2
      exact hstay (by rw [h2.2])
  obtain ⟨hy2, m, k1, k2, k3⟩ := key
  rw [c0]
  rw [k1] at hck
  rcases hck with e | e
  · exact ⟨hy2, m, e, k2, k3⟩
  · exact ⟨_, m, e, k2, k3.trans (s'' := { hy2 with timed := true }) (n := 0) (.zero rfl rfl rfl rfl rfl k3.floor)⟩

/-- **C80.**  Whatever happens in `n` rounds of diving, the hyper-heuristic is updated at most `n` times, and each time
in the same way: a use and a new column are booked on BestPaths, whichever heuristic was run and even if none was found (as before
the first dive), no decrease of the objective is seen, and the learning rate falls by 0.1, to no less than 0.1. -/
theorem C80_dive {st st' : SolveState} {hy : Hyper} {n : Nat} (hinv : Inv st) (hy0 : st.hyper = some hy) (hth : 1 / 10 ≤ hy.theta)
    (ht : Trace cfg env true st n st') : ∃ hy' m, st'.hyper = some hy' ∧ m ≤ n ∧ Unlearned hy hy' m := by
  have : Inv st' ∧ ∃ hy' m, st'.hyper = some hy' ∧ m ≤ n ∧ Unlearned hy hy' m := by
    induction ht with
    | zero => exact ⟨hinv, hy, 0, hy0, le_refl _, .zero rfl rfl rfl rfl rfl hth⟩
    | snoc _ hm _ h ih =>
      obtain ⟨i0, hy1, m, i1, i2, i3⟩ := ih
      obtain ⟨hy', k, j1, j2, j3⟩ := unlearned_step i0 i1 i3.floor hm h
      refine ⟨?_, hy', m + k, j1, by omega, i3.trans j3⟩
      exact findColumns_keeps i0 h
  exact this.2

/-- `n` rounds of diving. -/
def diveRounds (cfg : SolveCfg) (env : Env) : Nat → SolveState → Option SolveState
  | 0, st => some st
  | n + 1, st => match diveRounds cfg env n st with
    | none => none
    | some st1 =>
      if st1.more && (decide (n = 0) || !(env.timeUp st1.tick || limitReached cfg st1)) then (findColumns cfg env true st1).toOption
      else none

theorem diveRounds_trace {cfg : SolveCfg} {env : Env} {n : Nat} {st stm : SolveState} (h : diveRounds cfg env n st = some stm) :
    Trace cfg env true st n stm := by
  induction n generalizing stm with
  | zero =>
    cases h
    exact .zero
  | succ n ih =>
    unfold diveRounds at h
    split at h
    · cases h
    · rename_i st1 h1
      split at h
      · rename_i hc
        simp only [Bool.and_eq_true, Bool.or_eq_true, decide_eq_true_eq, Bool.not_eq_true', Bool.or_eq_false_iff] at hc
        exact .snoc (ih h1) hc.1 hc.2 (eq_ok_of_toOption h)
      · cases h

/-- Two rounds of diving after one round: both columns are found by BestEdges1, and BestPaths is credited for them. -/
example : ((rounds (exFourCfg 1) exFourEnv 1 exFourStart).bind (diveRounds (exFourCfg 1) exFourEnv 2)).map credit =
    some (some (some .bestEdges1, [2, 0, 0, 0]), [1, 2, 0, 0]) := by decide +kernel

/-- The hypotheses of `C80_dive` hold for these two rounds. -/
example : ∃ st st' hy, Inv st ∧ st.hyper = some hy ∧ 1 / 10 ≤ hy.theta ∧ Trace (exFourCfg 1) exFourEnv true st 2 st' := by
  have h : ((rounds (exFourCfg 1) exFourEnv 1 exFourStart).bind (fun st => (diveRounds (exFourCfg 1) exFourEnv 2 st).map
      (fun _ => st.hyper.map Hyper.theta))) = some (some 1) := by decide +kernel
  rw [Option.bind_eq_some_iff] at h
  obtain ⟨st, h1, h2⟩ := h
  rw [Option.map_eq_some_iff] at h2
  obtain ⟨st', h2, h3⟩ := h2
  rw [Option.map_eq_some_iff] at h3
  obtain ⟨hy, h3, h4⟩ := h3
  exact ⟨st, st', hy, (labelled_trace (exFour_first 1).inv (labelled_start rfl) (rounds_trace h1)).1, h3, by rw [h4]; norm_num,
    diveRounds_trace h2⟩

/-- A round as in `C79_round`: after two rounds the third one finds nothing. -/
example : (exFourCfg 1).M.globalSpan = false ∧ (exFourCfg 1).K ≠ 0 ∧ ∃ st st', findColumns (exFourCfg 1) exFourEnv false st = .ok st' ∧
    st'.more = false := by
  have h : ((rounds (exFourCfg 1) exFourEnv 2 exFourStart).bind (fun st => ((findColumns (exFourCfg 1) exFourEnv false st).toOption.map
      SolveState.more))) = some false := by decide +kernel
  rw [Option.bind_eq_some_iff] at h
  obtain ⟨st, _, h2⟩ := h
  rw [Option.map_eq_some_iff] at h2
  obtain ⟨st', h2, h3⟩ := h2
  exact ⟨rfl, by decide, st, st', eq_ok_of_toOption h2, h3⟩

end Solve

end Vrpy
