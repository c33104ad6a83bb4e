import Mathlib.Algebra.Order.Archimedean.Basic
import Verif.Model.Time
import Verif.Props.Termination

/-!
# C69: the time limit

When the remaining time is what, when column generation stops because of it, that every `solve()` with a time limit ends, and
what time the solvers are given.
-/

namespace Vrpy

open Spec

namespace TimeLimit

/-- A time limit has been set, and it is over. -/
def _root_.Vrpy.Spec.Over (limit : Option ℚ) (start now : ℚ) : Prop := ∃ l, limit = some l ∧ l ≠ 0 ∧ start + l ≤ now

/-- **C69.** The remaining time is a number exactly if a time limit other than zero was given; it is the time until then, at
least 0, and at least 5 for the final MIP. -/
theorem C69_remaining {limit : Option ℚ} {start now : ℚ} {mip : Bool} {x : ℚ} :
    remaining limit start now mip = some x ↔
      ∃ l, limit = some l ∧ l ≠ 0 ∧ x = max (if mip then 5 else 0) (start + l - now) := by
  cases limit with
  | none => simp [remaining]
  | some l =>
    have e : l - (now - start) = start + l - now := by ring
    simp only [remaining, e, Option.some.injEq]
    constructor
    · intro h
      split at h
      · cases h
      · rename_i hl
        refine ⟨l, rfl, hl, ?_⟩
        split at h
        · rename_i hm
          simp only [Option.some.injEq] at h
          rw [if_pos hm, h]
        · rename_i hm
          rw [if_neg hm]
          split at h
          · rename_i hp
            simp only [Option.some.injEq] at h
            rw [max_eq_right (le_of_lt hp), h]
          · rename_i hp
            simp only [Option.some.injEq] at h
            rw [max_eq_left (not_lt.1 hp), h]
    · rintro ⟨l', rfl, hl, rfl⟩
      rw [if_neg hl]
      cases mip with
      | true => simp
      | false =>
        simp only [Bool.false_eq_true, if_false]
        split
        · rename_i hp
          rw [max_eq_right (le_of_lt hp)]
        · rename_i hp
          rw [max_eq_left (not_lt.1 hp)]

/-- **C69.** The loop is left because of the time exactly if the limit is over at the second reading of the clock. -/
theorem C69_time_up {limit : Option ℚ} {start now now' : ℚ} : up limit start now now' = true ↔ Over limit start now' := by
  unfold up
  simp only [Bool.and_eq_true, decide_eq_true_eq, Option.isSome_iff_exists]
  constructor
  · rintro ⟨_, h⟩
    obtain ⟨l, h1, h2, h3⟩ := C69_remaining.1 h
    refine ⟨l, h1, h2, ?_⟩
    simp only [Bool.false_eq_true, if_false] at h3
    have := le_max_right 0 (start + l - now')
    linarith
  · rintro ⟨l, h1, h2, h3⟩
    refine ⟨⟨_, C69_remaining.2 ⟨l, h1, h2, rfl⟩⟩, C69_remaining.2 ⟨l, h1, h2, ?_⟩⟩
    simp only [Bool.false_eq_true, if_false]
    rw [max_eq_left (by linarith)]

/-- **C69.** The pricing LP never gives up because of the time, also when it is over: its test is dead code. -/
theorem C69_lp_never_gives_up {limit : Option ℚ} {start now : ℚ} : lpGivesUp (remaining limit start now false) = false := by
  cases h : remaining limit start now false with
  | none => rfl
  | some x =>
    obtain ⟨l, _, _, h3⟩ := C69_remaining.1 h
    simp only [Bool.false_eq_true, if_false] at h3
    have hx : 0 ≤ x := h3 ▸ le_max_left _ _
    simp only [lpGivesUp, Bool.and_eq_false_iff, decide_eq_false_iff_not]
    by_cases h0 : x = 0
    · exact Or.inl (fun h => h h0)
    · exact Or.inr (not_le.2 (lt_of_le_of_ne hx (Ne.symm h0)))

/-- **C69 (partial).** cspy is not given more time than remains — unless the time is over: then it is given no limit at
all. -/
theorem C69_cspy_partial {limit : Option ℚ} {start now : ℚ} :
    (forCspy (remaining limit start now false) = none ↔ limit = none ∨ limit = some 0 ∨ Over limit start now) ∧
    ∀ x, forCspy (remaining limit start now false) = some x → ∃ l, limit = some l ∧ now < start + l ∧ x + 1 / 2 = start + l - now := by
  cases h : remaining limit start now false with
  | none =>
    refine ⟨⟨fun _ => ?_, fun _ => rfl⟩, fun x hx => by cases hx⟩
    cases limit with
    | none => exact Or.inl rfl
    | some l =>
      by_cases hl : l = 0
      · exact Or.inr (Or.inl (by rw [hl]))
      · rw [C69_remaining.2 ⟨l, rfl, hl, rfl⟩] at h
        cases h
  | some x =>
    obtain ⟨l, h1, h2, h3⟩ := C69_remaining.1 h
    simp only [Bool.false_eq_true, if_false] at h3
    subst h1
    by_cases ht : start + l ≤ now
    · have hx : x = 0 := by rw [h3, max_eq_left (by linarith)]
      subst hx
      exact ⟨⟨fun _ => Or.inr (Or.inr ⟨l, rfl, h2, ht⟩), fun _ => by simp [forCspy]⟩, fun x hx => by simp [forCspy] at hx⟩
    · have hx : x = start + l - now := by rw [h3, max_eq_right (by linarith)]
      have hne : x ≠ 0 := by
        intro h0
        exact ht (by linarith)
      simp only [forCspy, if_neg hne]
      refine ⟨⟨fun hf => (by cases hf), ?_⟩, ?_⟩
      · rintro (hf | hf | ⟨l', h1, _, h4⟩)
        · cases hf
        · simp only [Option.some.injEq] at hf
          exact absurd hf h2
        · simp only [Option.some.injEq] at h1
          subst h1
          exact absurd h4 ht
      · intro y hy
        simp only [Option.some.injEq] at hy
        refine ⟨l, rfl, not_le.1 ht, ?_⟩
        rw [← hy, ← hx]
        ring

/-- The time is over in the middle of an iteration: cspy searches without a limit. -/
theorem C69_unlimited_counterexample : Over (some 10) 0 11 ∧ forCspy (remaining (some 10) 0 11 false) = none :=
  ⟨⟨10, rfl, by norm_num, by norm_num⟩, by decide +kernel⟩

/-- With a quarter of a second left, the limit given to cspy is negative. -/
theorem C69_negative_counterexample : forCspy (remaining (some 10) 0 (39 / 4) false) = some (-1 / 4) := by decide +kernel

end TimeLimit

namespace Solve

open TimeLimit

variable {cfg : SolveCfg} {env : Env} {dive : Bool}

/-- The test of the loop is made with this limit and this clock: `clock t` is the time after `t` external calls (solver calls
and so on), `clock 0` that at the beginning of `solve()`. -/
def _root_.Vrpy.Spec.Timed (env : Env) (limit : Option ℚ) (clock : Nat → ℚ) : Prop :=
  ∀ t, ∃ now, env.timeUp t = up limit (clock 0) now (clock t)

theorem priceAll_tick {d : Duals} {k : Nat} {js : List (Option ColName × Strategy)} {t t' : Nat} {cols cols' : List Column}
    {b : Bool} (h : priceAll cfg env d k js t cols = .ok (cols', b, t')) : t ≤ t' := by
  induction js generalizing t cols with
  | nil =>
    simp only [priceAll, Except.ok.injEq, Prod.mk.injEq] at h
    exact le_of_eq h.2.2
  | cons j js ih =>
    unfold priceAll at h
    split at h
    · cases h
    · simp only [Except.ok.injEq, Prod.mk.injEq] at h
      omega
    · exact le_trans (Nat.le_succ t) (ih h)

theorem addToMaster_tick {st st' : SolveState} {c : Column} (h : addToMaster cfg st c = .ok st') : st'.tick = st.tick := by
  unfold addToMaster at h
  split at h
  · cases h
  · cases h
    rfl

theorem addMissing_tick {st st' : SolveState} (h : addMissing cfg st = .ok st') : st'.tick = st.tick := by
  refine foldlM_inv (P := fun s : SolveState => s.tick = st.tick) _ _ _ rfl ?_ h
  intro c a c' _ hc hs
  split at hs
  · cases hs; exact hc
  · exact (addToMaster_tick hs).trans hc

theorem greedyPhase_tick {d : Duals} {k : Nat} {st st' : SolveState} (h : greedyPhase cfg env d k st = .ok st') :
    st.tick ≤ st'.tick := by
  unfold greedyPhase at h
  split at h
  · simp only [py_bind_ok] at h
    obtain ⟨p, _, cap, _, r, _, h⟩ := h
    split at h
    · rw [addMissing_tick h]
      exact Nat.le_succ _
    · simp only [pure, Except.pure, Except.ok.injEq] at h
      rw [← h]
      exact Nat.le_succ _
  · cases h
    exact le_rfl

theorem vehicleLoop_tick {d : Duals} {hh : Heur} {ks : List Nat} {st st' : SolveState}
    (h : vehicleLoop cfg env d hh ks st = .ok st') : st.tick ≤ st'.tick := by
  induction ks generalizing st with
  | nil =>
    simp only [vehicleLoop, Except.ok.injEq] at h
    rw [h]
  | cons k ks ih =>
    unfold vehicleLoop at h
    cases hg : greedyPhase cfg env d k st with
    | error e => simp [hg] at h
    | ok st1 =>
      simp only [hg] at h
      have h1 := greedyPhase_tick hg
      cases hp : priceAll cfg env d k (jobs cfg hh st1.cols) st1.tick st1.cols with
      | error e => simp [hp] at h
      | ok r =>
        obtain ⟨cols, b, t⟩ := r
        have h2 := priceAll_tick hp
        cases b with
        | true =>
          simp only [hp, register] at h
          split at h
          · cases h
          · have := addToMaster_tick h
            simp only at this
            omega
        | false =>
          simp only [hp] at h
          have := ih h
          simp only at this
          omega

/-- Every iteration calls at least one solver. -/
theorem findColumns_tick {st st' : SolveState} (h : findColumns cfg env dive st = .ok st') : st.tick < st'.tick := by
  obtain ⟨d, cost, st1, hh, st2, st3, e1, e2, e3, e4⟩ := findColumns_inv h
  have h1 : st.tick < st1.tick := by
    unfold solveMaster at e1
    split at e1
    · unfold solveDive at e1
      simp only at e1
      split at e1
      · cases e1
      · simp only [Except.ok.injEq, Prod.mk.injEq] at e1
        rw [← e1.2.2]
        simp
    · unfold solveRelaxed at e1
      simp only at e1
      split at e1
      · simp only [Except.ok.injEq, Prod.mk.injEq] at e1
        rw [← e1.2.2]
        simp
      · cases e1
  have h2 : st1.tick ≤ st2.tick := by
    unfold nextStrategy at e2
    split at e2
    · split at e2
      · unfold nextHyper at e2
        split at e2
        · cases e2
        · split at e2
          · cases e2
            exact le_rfl
          · split at e2
            · cases e2
            · simp only [Except.ok.injEq, Prod.mk.injEq] at e2
              rw [← e2.2]
              exact Nat.le_succ _
      · cases e2
        exact le_rfl
    · cases e2
      exact le_rfl
  have h3 := vehicleLoop_tick e3
  have h4 : st'.tick = st3.tick := by
    unfold count at e4
    simp only at e4
    split at e4
    · split at e4
      · cases e4
      · cases e4
        rfl
    · cases e4
      rfl
  omega

theorem Trace.tick {st st' : SolveState} {n : Nat} (h : Trace cfg env dive st n st') : st.tick + n ≤ st'.tick := by
  induction h with
  | zero => exact le_rfl
  | snoc _ _ _ h4 ih =>
    have := findColumns_tick h4
    omega

/-- **C69.** If column generation stops although the last iteration has found a column and neither of the other two limits is
reached, then the time limit is over: it does not stop early. -/
theorem C69_not_early {limit : Option ℚ} {clock : Nat → ℚ} (ht : Timed env limit clock) {fuel : Nat} {st st' : SolveState}
    (h : columnGeneration cfg env dive fuel st = .ok (some st')) (hmore : st'.more = true)
    (hl : limitReached cfg st' = false) : Over limit (clock 0) (clock st'.tick) := by
  obtain ⟨n, _, _, h1 | ⟨_, h1 | h1⟩⟩ := columnGeneration_trace h
  · rw [hmore] at h1
    cases h1
  · obtain ⟨now, e⟩ := ht st'.tick
    rw [e] at h1
    exact C69_time_up.1 h1
  · rw [hl] at h1
    cases h1

theorem Trace.det {st st1 st2 : SolveState} {n : Nat} (h1 : Trace cfg env dive st n st1) (h2 : Trace cfg env dive st n st2) :
    st1 = st2 := by
  induction h1 generalizing st2 with
  | zero =>
    cases h2
    rfl
  | snoc _ _ _ h4 ih =>
    cases h2 with
    | snoc g1 _ _ g4 =>
      rw [← ih g1, h4] at g4
      exact Except.ok.inj g4

theorem Trace.split {st st' : SolveState} {n m : Nat} (h : Trace cfg env dive st n st') (hm : m < n) :
    ∃ s, Trace cfg env dive st m s ∧ (m = 0 ∨ GoesOn cfg env s) := by
  induction h with
  | zero => omega
  | @snoc n a b h1 h2 h3 h4 ih =>
    by_cases he : m = n
    · subst he
      exact ⟨a, h1, h3⟩
    · exact ih (by omega)

/-- **C69.** The loop overruns the limit by one iteration at most: whenever an iteration other than the first of the loop is
begun, the limit is not over. -/
theorem C69_overrun {limit : Option ℚ} {clock : Nat → ℚ} (ht : Timed env limit clock) {fuel : Nat} {st st' : SolveState}
    (h : columnGeneration cfg env dive fuel st = .ok (some st')) :
    ∃ n, Trace cfg env dive st n st' ∧
      ∀ m s, 0 < m → m < n → Trace cfg env dive st m s → ¬ Over limit (clock 0) (clock s.tick) := by
  obtain ⟨n, _, h1, _⟩ := columnGeneration_trace h
  refine ⟨n, h1, fun m s hm hmn hs ho => ?_⟩
  obtain ⟨s', g1, g2⟩ := h1.split hmn
  rw [hs.det g1] at ho
  obtain ⟨now, e⟩ := ht s'.tick
  rcases g2 with g2 | g2
  · omega
  · have := e.trans (C69_time_up.2 ho)
    rw [g2.1] at this
    cases this

/-- Between two external calls time passes, at least `δ`. -/
def _root_.Vrpy.Spec.Ticks (δ : ℚ) (clock : Nat → ℚ) : Prop := 0 < δ ∧ ∀ t, clock t + δ ≤ clock (t + 1)

theorem ticks_after {δ : ℚ} {clock : Nat → ℚ} (h : Ticks δ clock) (t : Nat) : clock 0 + t * δ ≤ clock t := by
  induction t with
  | zero => simp
  | succ t ih =>
    have := h.2 t
    push_cast
    linarith

/-- **C69.** With a time limit, column generation ends after at most `l / δ` iterations (and one), with either way of pricing,
with or without diving, whatever the solvers answer. -/
theorem C69_loop {l δ : ℚ} {clock : Nat → ℚ} (hl : l ≠ 0) (ht : Timed env (some l) clock) (hc : Ticks δ clock)
    {st : SolveState} {fuel : Nat} (h0 : 0 < fuel) (hfuel : l ≤ fuel * δ) : columnGeneration cfg env dive fuel st ≠ .ok none := by
  intro h
  obtain ⟨st', h1, _, h3⟩ := columnGeneration_none h
  rcases h3 with h3 | h3
  · omega
  · obtain ⟨now, e⟩ := ht st'.tick
    have htick : (fuel : ℚ) ≤ st'.tick := by
      exact_mod_cast le_trans (Nat.le_add_left _ _) h1.tick
    have ho : Over (some l) (clock 0) (clock st'.tick) := by
      refine ⟨l, rfl, hl, ?_⟩
      have h4 := ticks_after hc st'.tick
      have h5 := mul_le_mul_of_nonneg_right htick (le_of_lt hc.1)
      linarith
    have := e.trans (C69_time_up.2 ho)
    rw [h3.1] at this
    cases this

theorem run_timed {l δ : ℚ} {clock : Nat → ℚ} (hl : l ≠ 0) (ht : Timed env (some l) clock) (hc : Ticks δ clock)
    {st : SolveState} {fuel : Nat} {old : List Column} (h0 : 0 < fuel) (hfuel : l ≤ fuel * δ) :
    run cfg env dive old fuel st ≠ .ok none := by
  intro h
  unfold run at h
  cases h1 : columnGeneration cfg env false fuel st with
  | error e => simp [h1] at h
  | ok x =>
    cases x with
    | none => exact C69_loop hl ht hc h0 hfuel h1
    | some st1 =>
      simp only [h1] at h
      by_cases hd : dive = true
      · simp only [hd, if_true] at h
        cases h2 : columnGeneration cfg env true fuel { st1 with more := true } with
        | error e => simp [h2] at h
        | ok y =>
          cases y with
          | none => exact C69_loop hl ht hc h0 hfuel h2
          | some st2 => simp [h2] at h
      · simp only [hd, if_false, Bool.false_eq_true] at h
        split at h <;> simp at h

/-- **C69.** With diving, at least one more iteration is done after column generation, also when the time is over. -/
theorem C69_dive_goes_on {old : List Column} {fuel : Nat} {st st' : SolveState} {f : Final}
    (h : run cfg env true old fuel st = .ok (some (st', f))) :
    ∃ n1 st1 n2, Trace cfg env false st n1 st1 ∧ Trace cfg env true { st1 with more := true } (n2 + 1) st' := by
  unfold run at h
  cases h1 : columnGeneration cfg env false fuel st with
  | error e => simp [h1] at h
  | ok x =>
    cases x with
    | none => simp [h1] at h
    | some st1 =>
      simp only [h1, if_true] at h
      cases h2 : columnGeneration cfg env true fuel { st1 with more := true } with
      | error e => simp [h2] at h
      | ok y =>
        cases y with
        | none => simp [h2] at h
        | some st2 =>
          simp only [h2, Except.ok.injEq, Option.some.injEq, Prod.mk.injEq] at h
          obtain ⟨rfl, _⟩ := h
          obtain ⟨n1, _, t1, _⟩ := columnGeneration_trace h1
          obtain ⟨n2, _, t2, t3⟩ := columnGeneration_trace h2
          cases n2 with
          | zero =>
            rcases t3 with t3 | ⟨t3, _⟩
            · cases t2
              cases t3
            · omega
          | succ n2 => exact ⟨n1, st1, n2, t1, t2⟩

end Solve

/-- **C69.** With a time limit, `solve()` ends: for every problem and all arguments, also with pricing by LP, diving and
preassigned routes, whatever the solvers answer (as long as each of them answers).  More fuel does not change the outcome. -/
theorem C69_terminates {w : World} {a : SolveArgs} {P0 : Vrp} {o : Obj} {l δ : ℚ} {clock : Nat → ℚ} (hwf : P0.G.WF)
    (hcust : ∃ n, Node.cust n ∈ P0.G.nodes) (hdoc : CostsAsDocumented P0)
    (hdem : ∀ v ∈ P0.G.nodes, P0.pickupDelivery = false ∨ v = .source ∨ v = .sink → 0 ≤ userDemand P0.G v)
    (hl : l ≠ 0) (ht : Timed w.toEnv (some l) clock) (hclock : Ticks δ clock) (hc : Obj.create P0 = .ok o) :
    ∃ n outcome, (∀ fuel, n ≤ fuel → o.solve w a fuel = outcome) ∧ outcome ≠ .ok none := by
  refine solve_ends (fun P' hs => chooseInitial_locked hwf hcust hdoc hdem hc hs) ?_
  intro P' fuel0 rs cols hs hi hnum
  obtain ⟨n, hn⟩ := exists_nat_ge (l / δ)
  refine ⟨n + 1, Solve.run_timed hl ht hclock (Nat.succ_pos n) ?_⟩
  have h1 : l ≤ n * δ := (div_le_iff₀ hclock.1).1 hn
  have := hclock.1
  push_cast
  linarith

end Vrpy
