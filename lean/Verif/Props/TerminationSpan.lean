import Verif.Props.Termination

/-!
# C59 when the global span is minimized

The master problem then has one constraint for each of the column numbers 1 to 999, made in advance, and a column with any
other name cannot be added.  Each iteration after which the loop goes on has added a column, so there are at most 999 of them.
-/

namespace Vrpy

open Spec

namespace Solve

variable {cfg : SolveCfg} {env : Env} {dive : Bool}

/-- If something is found while the global span is minimized, the last column has a constraint of its own. -/
theorem vehicleLoop_span {d : Duals} {h : Heur} (hspan : cfg.M.globalSpan = true) {ks : List Nat} {st st' : SolveState}
    (hl : vehicleLoop cfg env d h ks st = .ok st') (hne : ks ≠ []) (hmore : st'.more = true) :
    ∃ c, st'.cols.getLast? = some c ∧ Master.hasSpanConstr c.name = true := by
  induction ks generalizing st with
  | nil => exact absurd rfl hne
  | cons k ks ih =>
    simp only [vehicleLoop] at hl
    cases hg : greedyPhase cfg env d k st with
    | error e => simp [hg] at hl
    | ok st1 =>
      simp only [hg] at hl
      cases hp : priceAll cfg env d k (jobs cfg h st1.cols) st1.tick st1.cols with
      | error e => simp [hp] at hl
      | ok r =>
        obtain ⟨cols2, b, t2⟩ := r
        cases b with
        | true =>
          simp only [hp, register] at hl
          cases hlast : cols2.getLast? with
          | none => simp [hlast] at hl
          | some c =>
            simp only [hlast] at hl
            obtain ⟨ha, rfl⟩ := addToMaster_ok hl
            refine ⟨c, hlast, ?_⟩
            unfold Master.addColumn at ha
            cases hs : Master.hasSpanConstr c.name with
            | true => rfl
            | false =>
              simp only [hspan, hs, Bool.not_false, Bool.and_self, if_true] at ha
              split at ha
              · cases ha
              · split at ha <;> cases ha
        | false =>
          simp only [hp] at hl
          by_cases hks : ks = []
          · subst hks
            simp only [vehicleLoop, Except.ok.injEq] at hl
            subst hl
            cases hmore
          · exact ih hl hks

/-- The loop makes at most 999 iterations after which it goes on. -/
theorem span_bound (hspan : cfg.M.globalSpan = true) (hK : 0 < cfg.K) {st st' : SolveState} {n : Nat} (hinv : Inv st)
    (ht : Trace cfg env dive st n st') (hmore : st'.more = true) :
    Inv st' ∧ st.cols.length + n ≤ st'.cols.length ∧ (n = 0 ∨ st'.cols.length ≤ 999) := by
  induction ht with
  | zero => exact ⟨hinv, by omega, Or.inl rfl⟩
  | @snoc n a b h1 h2 h3 h4 ih =>
    obtain ⟨i1, i2, _⟩ := ih h2
    obtain ⟨d, cost, st1, hh, st2, st3, e1, e2, e3, e4⟩ := findColumns_inv h4
    obtain ⟨j1, _⟩ := findColumns_step (Q := fun _ => True) i1 (fun _ _ _ _ => PriceOk.true) h4
    obtain ⟨m1, m2, _⟩ := solveMaster_step e1
    obtain ⟨n1, n2, _⟩ := nextStrategy_step e2
    obtain ⟨c1, _, _, c4, _⟩ := count_step e4
    have hinv2 : Inv st2 := by
      unfold Inv
      rw [n1, n2, m1, m2]
      exact i1
    have hne : List.range cfg.K ≠ [] := by
      intro h
      have := congrArg List.length h
      simp at this
      omega
    obtain ⟨_, _, _, _, v5⟩ := vehicleLoop_step (Q := fun _ => True) PriceOk.true (Or.inr fun _ => trivial)
      (fun k hk => List.mem_range.1 hk) hinv2 e3
    obtain ⟨hlt, _⟩ := v5 (c4 ▸ hmore) hne
    obtain ⟨c, hlast, hs⟩ := vehicleLoop_span hspan e3 hne (c4 ▸ hmore)
    rw [n1, m1, ← c1] at hlt
    rw [← c1] at hlast
    refine ⟨j1, by omega, Or.inr ?_⟩
    have hidx := j1.1 (b.cols.length - 1) c (by rw [← List.getLast?_eq_getElem?, hlast])
    cases hc : c.name with
    | num i =>
      simp only [hc, Master.hasSpanConstr, decide_eq_true_eq] at hs
      simp only [hc, ColName.index] at hidx
      have : Master.nColumns = 1000 := rfl
      omega
    | elem i => simp [hc, Master.hasSpanConstr] at hs
    | nonElem i => simp [hc, Master.hasSpanConstr] at hs

/-- **C59**, global span.  Column generation ends after at most 1000 iterations, whatever the pricing and the
answers of the solvers, with or without diving. -/
theorem C59_loop_span {st : SolveState} {fuel : Nat} (hspan : cfg.M.globalSpan = true) (hK : 0 < cfg.K)
    (hnum : Numbered st.cols) (hm : st.mcols = st.cols) (hfuel : 1000 ≤ fuel) :
    columnGeneration cfg env dive fuel st ≠ .ok none := by
  intro h
  obtain ⟨st', ht, hmore, _⟩ := columnGeneration_none h
  have := span_bound hspan hK ⟨hnum, hm⟩ ht hmore
  omega

theorem run_span {st : SolveState} {fuel : Nat} {old : List Column} (hspan : cfg.M.globalSpan = true) (hK : 0 < cfg.K)
    (hnum : Numbered st.cols) (hm : st.mcols = st.cols) (hfuel : 1000 ≤ fuel) : run cfg env dive old fuel st ≠ .ok none := by
  intro h
  unfold run at h
  cases h1 : columnGeneration cfg env false fuel st with
  | error e => simp [h1] at h
  | ok x =>
    cases x with
    | none => exact C59_loop_span hspan hK hnum hm hfuel h1
    | some st1 =>
      simp only [h1] at h
      by_cases hd : dive = true
      · simp only [hd, if_true] at h
        obtain ⟨n, _, ht, _⟩ := columnGeneration_trace h1
        obtain ⟨hi, _⟩ := Trace.pool (Q := fun _ => True) ⟨hnum, hm⟩ (fun _ _ _ _ _ _ _ _ => PriceOk.true) ht
        cases h2 : columnGeneration cfg env true fuel { st1 with more := true } with
        | error e => simp [h2] at h
        | ok y =>
          cases y with
          | none => exact C59_loop_span hspan hK (by exact hi.1) (by exact hi.2) hfuel h2
          | some st2 => simp [h2] at h
      · simp only [hd, if_false, Bool.false_eq_true] at h
        split at h <;> simp at h

end Solve

/-- **C59**, global span: with `minimize_global_span`, `solve()` ends, with LP pricing and with cspy, with or without diving and
preassigned routes, for every problem, without time or iteration limit, whatever the solvers answer. -/
theorem C59_terminates_span {w : World} {a : SolveArgs} {P0 : Vrp} {o : Obj} (hwf : P0.G.WF)
    (hcust : ∃ n, Node.cust n ∈ P0.G.nodes) (hdoc : CostsAsDocumented P0)
    (hdem : ∀ v ∈ P0.G.nodes, P0.pickupDelivery = false ∨ v = .source ∨ v = .sink → 0 ≤ userDemand P0.G v)
    (hspan : P0.minimizeGlobalSpan = true) (hc : Obj.create P0 = .ok o) :
    ∃ n outcome, (∀ fuel, n ≤ fuel → o.solve w a fuel = outcome) ∧ outcome ≠ .ok none := by
  refine solve_ends (fun P' hs => chooseInitial_locked hwf hcust hdoc hdem hc hs) ?_
  intro P' fuel0 rs cols hs hi hnum
  obtain ⟨K, N, N3, _, S⟩ := searched_locked hwf hcust hdoc hdem hc hs
  obtain ⟨f1, f2, f3, f4, f5, f6, f7, f8, f9, f10, f11⟩ := S.fields
  refine ⟨1000, Solve.run_span ?_ ?_ (by exact hnum) rfl le_rfl⟩
  · exact f9.trans hspan
  · show 0 < P'.vehicleTypes.getD 0
    have := S.types
    simp only at this
    rw [this]
    exact S.typesPos

end Vrpy
