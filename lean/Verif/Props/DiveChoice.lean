import Verif.Props.Credit
import Verif.Proofs.DiveRun

/-!
# C75: what diving fixes
-/

namespace Vrpy

open Spec

/-- Not an integer. -/
def Spec.Fractional (q : ℚ) : Prop := ∀ n : ℤ, q ≠ n

/-- `x` is at least as near to some integer as `y` to any. -/
def Spec.AsNear (x y : ℚ) : Prop := ∃ n : ℤ, ∀ m : ℤ, |x - n| ≤ |y - m|

/-- What a dive may fix: a variable with a fractional value that was not tried before, such that none of these is nearer to an
integer. -/
structure Spec.Candidate (vars tried : List MVar) (p : MVar → ℚ) (x : MVar) : Prop where
  var : x ∈ vars
  fractional : Fractional (p x)
  new : x ∉ tried
  nearest : ∀ y ∈ vars, Fractional (p y) → y ∉ tried → AsNear (p x) (p y)

namespace Master

theorem fractional_iff (q : ℚ) : fractionality q ≠ 0 ↔ Fractional q := by
  unfold fractionality Fractional
  constructor
  · intro h n hn
    apply h
    rw [hn, round_intCast, sub_self, abs_zero]
  · intro h h0
    have := abs_eq_zero.1 h0
    exact h (round q) (by linarith)

theorem asNear_of_le {x y : ℚ} (h : fractionality x ≤ fractionality y) : AsNear x y :=
  ⟨round x, fun m => h.trans (round_le y m)⟩

theorem leastFractional_min (p : MVar → ℚ) (x : MVar) (xs : List MVar) :
    leastFractional p x xs ∈ x :: xs ∧ ∀ y ∈ x :: xs, fractionality (p (leastFractional p x xs)) ≤ fractionality (p y) := by
  unfold leastFractional
  induction xs generalizing x with
  | nil => simp
  | cons z zs ih =>
    simp only [List.foldl_cons]
    obtain ⟨h1, h2⟩ := ih (if fractionality (p z) < fractionality (p x) then z else x)
    constructor
    · rcases List.mem_cons.1 h1 with h | h
      · rw [h]
        split <;> simp
      · exact List.mem_cons_of_mem _ (List.mem_cons_of_mem _ h)
    · intro y hy
      have h0 := h2 _ List.mem_cons_self
      rcases List.mem_cons.1 hy with rfl | hy
      · split at h0
        · rename_i hc
          rw [if_pos hc]
          exact h0.trans hc.le
        · rename_i hc
          rw [if_neg hc]
          exact h0
      · rcases List.mem_cons.1 hy with rfl | hy
        · split at h0
          · rename_i hc
            rw [if_pos hc]
            exact h0
          · rename_i hc
            rw [if_neg hc]
            exact h0.trans (not_lt.1 hc)
        · exact h2 y (List.mem_cons_of_mem _ hy)

theorem mem_varsToFix {vars tabu : List MVar} {p : MVar → ℚ} {x : MVar} :
    x ∈ varsToFix vars tabu p ↔ x ∈ vars ∧ Fractional (p x) ∧ x ∉ tabu := by
  unfold varsToFix
  rw [List.mem_filter, decide_eq_true_eq, fractional_iff]

/-- **C75, one dive.** At most one variable is fixed to 1, in at most four dives: a variable with a fractional value that was never tried before,
as near to an integer as any of these, and such that the problem with this variable fixed can be solved.  If nothing is fixed, there were four tries
before, or there is no such variable, or the problem with the variable fixed cannot be solved.  Whatever was tried is never
tried again.  `AttributeError` is raised exactly if the first try (or as many tries fail as succeed) cannot be solved. -/
theorem C75_choice (vars : List MVar) (st : DiveState) (p : MVar → ℚ) (solvable : MVar → Bool) :
    match runDive vars st p solvable with
    | .ok (some x, st') => st.depth ≤ 3 ∧ Candidate vars st.tabu p x ∧ solvable x = true ∧
        st' = { depth := st.depth + 1, level := st.level + 1, tabu := st.tabu ++ [x] }
    | .ok (none, st') => (3 < st.depth ∨ ∀ y ∈ vars, Fractional (p y) → y ∈ st.tabu) ∧ st' = st ∨
        st.depth ≤ 3 ∧ ∃ x, Candidate vars st.tabu p x ∧ solvable x = false ∧ st.level ≠ 0 ∧
          st' = { depth := st.depth + 1, level := st.level - 1, tabu := st.tabu ++ [x] }
    | .error e => e = .attributeError ∧ st.depth ≤ 3 ∧ st.level = 0 ∧ ∃ x, Candidate vars st.tabu p x ∧ solvable x = false := by
  unfold runDive
  split
  · rename_i x st' h
    split at h
    · cases h
    · rename_i hd
      split at h
      · cases h
      · rename_i z zs hz
        simp only at h
        have hc : Candidate vars st.tabu p (leastFractional p z zs) := by
          obtain ⟨h1, h2⟩ := leastFractional_min p z zs
          obtain ⟨m1, m2, m3⟩ := mem_varsToFix.1 (hz ▸ h1)
          exact ⟨m1, m2, m3, fun y y1 y2 y3 => asNear_of_le (h2 y (hz ▸ mem_varsToFix.2 ⟨y1, y2, y3⟩))⟩
        split at h
        · rename_i hs
          simp only [Except.ok.injEq, Prod.mk.injEq, Option.some.injEq] at h
          obtain ⟨rfl, rfl⟩ := h
          exact ⟨by omega, hc, hs, rfl⟩
        · split at h
          · cases h
          · cases h
  · rename_i st' h
    split at h
    · rename_i hd
      simp only [Except.ok.injEq, Prod.mk.injEq, true_and] at h
      exact Or.inl ⟨Or.inl hd, h.symm⟩
    · rename_i hd
      split at h
      · rename_i hz
        simp only [Except.ok.injEq, Prod.mk.injEq, true_and] at h
        refine Or.inl ⟨Or.inr ?_, h.symm⟩
        intro y y1 y2
        by_contra y3
        have := mem_varsToFix.2 ⟨y1, y2, y3⟩
        rw [hz] at this
        cases this
      · rename_i z zs hz
        simp only at h
        have hc : Candidate vars st.tabu p (leastFractional p z zs) := by
          obtain ⟨h1, h2⟩ := leastFractional_min p z zs
          obtain ⟨m1, m2, m3⟩ := mem_varsToFix.1 (hz ▸ h1)
          exact ⟨m1, m2, m3, fun y y1 y2 y3 => asNear_of_le (h2 y (hz ▸ mem_varsToFix.2 ⟨y1, y2, y3⟩))⟩
        split at h
        · cases h
        · rename_i hs
          split at h
          · cases h
          · rename_i l hl
            simp only [Except.ok.injEq, Prod.mk.injEq, true_and] at h
            exact Or.inr ⟨by omega, _, hc, by simpa using hs, by omega, by rw [hl, ← h]; rfl⟩
  · rename_i e h
    split at h
    · cases h
    · rename_i hd
      split at h
      · cases h
      · rename_i z zs hz
        simp only at h
        have hc : Candidate vars st.tabu p (leastFractional p z zs) := by
          obtain ⟨h1, h2⟩ := leastFractional_min p z zs
          obtain ⟨m1, m2, m3⟩ := mem_varsToFix.1 (hz ▸ h1)
          exact ⟨m1, m2, m3, fun y y1 y2 y3 => asNear_of_le (h2 y (hz ▸ mem_varsToFix.2 ⟨y1, y2, y3⟩))⟩
        split at h
        · cases h
        · rename_i hs
          split at h
          · rename_i hl
            simp only [Except.error.injEq] at h
            exact ⟨h.symm, by omega, hl, _, hc, by simpa using hs⟩
          · cases h

end Master

/-- The dives between two states: `tried` is what they tried to fix, in this order. -/
structure Spec.Dived (st stm : SolveState) (tried : List MVar) : Prop where
  tabu : stm.dive.tabu = st.dive.tabu ++ tried
  depth : stm.dive.depth = st.dive.depth + tried.length
  few : tried = [] ∨ stm.dive.depth ≤ 4
  nodup : tried.Nodup
  new : ∀ x ∈ tried, x ∉ st.dive.tabu
  fixed : ∃ fx, fx.Sublist tried ∧ stm.fixed = st.fixed ++ fx

namespace Solve

variable {cfg : SolveCfg} {env : Env}

theorem nextStrategy_dive {st st' : SolveState} {cost : ℚ} {h : Heur} (hn : nextStrategy cfg env st cost = .ok (h, st')) :
    st'.dive = st.dive := by
  unfold nextStrategy at hn
  split at hn
  · split at hn
    · unfold nextHyper at hn
      split at hn
      · cases hn
      · split at hn
        · cases hn; rfl
        · split at hn
          · cases hn
          · cases hn; rfl
    · cases hn; rfl
  · cases hn; rfl

theorem count_dive {dive : Bool} {cost : ℚ} {st st' : SolveState} (h : count dive cost st = .ok st') : st'.dive = st.dive := by
  unfold count at h
  simp only at h
  split at h
  · split at h
    · cases h
    · cases h; rfl
  · cases h; rfl

/-- What a round keeps of the dive. -/
theorem findColumns_dive {dive : Bool} {st st' : SolveState} (hinv : Inv st) (h : findColumns cfg env dive st = .ok st') :
    Inv st' ∧ ∃ d cost st1, solveMaster cfg env dive st = .ok (d, cost, st1) ∧ st'.fixed = st1.fixed ∧ st'.dive = st1.dive := by
  obtain ⟨d, cost, st1, hh, st2, st3, h1, h2, h3, h4⟩ := findColumns_inv h
  obtain ⟨m1, m2, _⟩ := solveMaster_step h1
  obtain ⟨n1, n2, _⟩ := nextStrategy_step h2
  obtain ⟨c1, c2, _⟩ := count_step h4
  have hinv2 : Inv st2 := by
    unfold Inv
    rw [n1, n2, m1, m2]
    exact hinv
  obtain ⟨v1, _, v4, _⟩ := vehicleLoop_step (Q := fun _ => True) (PriceOk.true) (Or.inr (fun _ => trivial))
    (fun k hk => List.mem_range.1 hk) hinv2 h3
  refine ⟨?_, d, cost, st1, h1, ?_, ?_⟩
  · unfold Inv
    rw [c1, c2]
    exact v1
  · rw [count_fixed h4, v4.fixed, nextStrategy_fixed h2]
  · rw [count_dive h4, v4.dive, nextStrategy_dive h2]

theorem relaxed_dive {st st' : SolveState} (hinv : Inv st) (h : findColumns cfg env false st = .ok st') :
    Inv st' ∧ st'.fixed = st.fixed ∧ st'.dive = st.dive := by
  obtain ⟨h1, d, cost, st1, h2, h3, h4⟩ := findColumns_dive hinv h
  simp only [solveMaster, Bool.false_eq_true, if_false] at h2
  unfold solveRelaxed at h2
  simp only at h2
  split at h2
  · simp only [Except.ok.injEq, Prod.mk.injEq] at h2
    obtain ⟨_, _, rfl⟩ := h2
    exact ⟨h1, h3, h4⟩
  · cases h2

theorem dived_step {st stm st' : SolveState} {tried : List MVar} (hinv : Inv stm) (hd : Dived st stm tried)
    (h : findColumns cfg env true stm = .ok st') : Inv st' ∧ ∃ new, Dived st st' (tried ++ new) := by
  obtain ⟨h1, d, cost, st1, h2, h3, h4⟩ := findColumns_dive hinv h
  refine ⟨h1, ?_⟩
  simp only [solveMaster, if_true] at h2
  unfold solveDive at h2
  simp only at h2
  have key := Master.C75_choice (cfg.M.allVars stm.mcols) stm.dive
    (env.master stm.tick (cfg.M.diveLP stm.mcols stm.fixed)).point
    (fun x => env.solvable stm.tick (cfg.M.diveLP stm.mcols (stm.fixed ++ [x])))
  obtain ⟨fx, f1, f2⟩ := hd.fixed
  have add : ∀ x l, x ∉ stm.dive.tabu → stm.dive.depth ≤ 3 →
      st'.dive = { depth := stm.dive.depth + 1, level := l, tabu := stm.dive.tabu ++ [x] } →
      (∃ fx, fx.Sublist (tried ++ [x]) ∧ st'.fixed = st.fixed ++ fx) → Dived st st' (tried ++ [x]) := by
    intro x l hx hdep hst hfx
    rw [hd.tabu] at hx
    refine ⟨?_, ?_, Or.inr ?_, ?_, ?_, hfx⟩
    · rw [hst, hd.tabu, List.append_assoc]
    · rw [hst, hd.depth, List.length_append, List.length_singleton]
      exact Nat.add_assoc _ _ _
    · rw [hst]
      exact Nat.succ_le_succ hdep
    · rw [List.nodup_append]
      refine ⟨hd.nodup, by simp, ?_⟩
      intro a ha b hb hab
      simp only [List.mem_singleton] at hb
      subst hb hab
      exact hx (List.mem_append_right _ ha)
    · intro y hy
      rcases List.mem_append.1 hy with hy | hy
      · exact hd.new y hy
      · simp only [List.mem_singleton] at hy
        subst hy
        exact fun hm => hx (List.mem_append_left _ hm)
  split at h2
  · cases h2
  · rename_i x ds hx
    rw [hx] at key
    simp only [Except.ok.injEq, Prod.mk.injEq] at h2
    obtain ⟨_, _, rfl⟩ := h2
    simp only at h3 h4
    cases x with
    | some y =>
      simp only at key
      obtain ⟨k1, k2, _, k4⟩ := key
      refine ⟨[y], add y (stm.dive.level + 1) k2.new k1 (by rw [h4, k4]) ⟨fx ++ [y], f1.append (List.Sublist.refl _), ?_⟩⟩
      rw [h3, f2]
      simp
    | none =>
      simp only [Option.toList_none, List.append_nil] at key h3
      rcases key with ⟨_, k2⟩ | ⟨k1, y, k2, _, _, k5⟩
      · refine ⟨[], ?_⟩
        rw [List.append_nil]
        refine ⟨by rw [h4, k2]; exact hd.tabu, by rw [h4, k2]; exact hd.depth, by rw [h4, k2]; exact hd.few, hd.nodup, hd.new, fx, f1, ?_⟩
        rw [h3, f2]
      · exact ⟨[y], add y (stm.dive.level - 1) k2.new k1 (by rw [h4, k5])
          ⟨fx, f1.trans (List.sublist_append_left _ _), by rw [h3, f2]⟩⟩

theorem dived_trace {st stm : SolveState} {n : Nat} (hinv : Inv st) (ht : Trace cfg env true st n stm) :
    Inv stm ∧ ∃ tried, Dived st stm tried := by
  induction ht with
  | zero => exact ⟨hinv, [], by simp, by simp, Or.inl rfl, by simp, by simp, [], by simp, by simp⟩
  | snoc _ _ _ h ih =>
    obtain ⟨i1, tried, i2⟩ := ih
    obtain ⟨h1, new, h2⟩ := dived_step i1 i2 h
    exact ⟨h1, _, h2⟩

theorem relaxed_trace {st stm : SolveState} {n : Nat} (hinv : Inv st) (ht : Trace cfg env false st n stm) :
    Inv stm ∧ stm.fixed = st.fixed ∧ stm.dive = st.dive := by
  induction ht with
  | zero => exact ⟨hinv, rfl, rfl⟩
  | snoc _ _ _ h ih =>
    obtain ⟨h1, h2, h3⟩ := relaxed_dive ih.1 h
    exact ⟨h1, h2.trans ih.2.1, h3.trans ih.2.2⟩

/-- **C75, whole runs.** `solve(dive=True)` tries to fix at most four variables, none twice, and none that was tried
in an earlier run (of any problem in the same process); those fixed to 1 are among them, in this order. -/
theorem C75_run {st st' : SolveState} {f : Final} {old : List Column} {fuel : Nat} (hinv : Inv st) (hfix : st.fixed = [])
    (hdepth : st.dive.depth = 0) (h : run cfg env true old fuel st = .ok (some (st', f))) :
    ∃ tried : List MVar, tried.length ≤ 4 ∧ tried.Nodup ∧ (∀ x ∈ tried, x ∉ st.dive.tabu) ∧
      st'.dive.tabu = st.dive.tabu ++ tried ∧ st'.fixed.Sublist tried := by
  unfold run at h
  cases h1 : columnGeneration cfg env false fuel st with
  | error e => simp [h1] at h
  | ok r =>
  cases r with
  | none => simp [h1] at h
  | some st1 =>
  simp only [h1, if_true] at h
  obtain ⟨n1, _, ht1, _⟩ := columnGeneration_trace h1
  obtain ⟨i1, i2, i3⟩ := relaxed_trace hinv ht1
  cases h2 : columnGeneration cfg env true fuel { st1 with more := true } with
  | error e => simp [h2] at h
  | ok r =>
  cases r with
  | none => simp [h2] at h
  | some st2 =>
  simp only [h2, Except.ok.injEq, Option.some.injEq, Prod.mk.injEq] at h
  obtain ⟨rfl, _⟩ := h
  obtain ⟨n2, _, ht2, _⟩ := columnGeneration_trace h2
  obtain ⟨_, tried, j2⟩ := dived_trace (st := { st1 with more := true }) i1 ht2
  obtain ⟨k1, k2, k3, k4, k5, fx, k6, k7⟩ := j2
  simp only [i2, i3, hfix, hdepth] at k1 k2 k3 k5 k7
  refine ⟨tried, ?_, k4, k5, k1, by rw [k7]; simpa using k6⟩
  rcases k3 with k3 | k3
  · simp [k3]
  · omega

end Solve

end Vrpy
