import Verif.Proofs.EndToEnd
import Verif.Props.Dive

/-!
# Runs with diving
-/

namespace Vrpy

open Spec

/-- What diving relies on: a problem reported as solvable is feasible, and a feasible problem whose objective is bounded below
is solved. -/
structure Spec.DiveOk (env : Env) : Prop where
  solvable : ∀ t P, env.solvable t P = true → ∃ p, P.Feasible p
  solved : ∀ t P, (∃ p, P.Feasible p) → (∃ b, ∀ p, P.Feasible p → b ≤ P.obj.eval p) → (env.master t P).optimal = true

namespace Master

variable {M : Master} {cols new : List Column} {p : MVar → ℚ}

/-- New columns are not used. -/
def extend (cols : List Column) (p : MVar → ℚ) : MVar → ℚ
  | .y n => if n ∈ cols.map Column.name then p (.y n) else 0
  | x => p x

theorem extend_old {c : Column} (hc : c ∈ cols) : extend cols p (.y c.name) = p (.y c.name) := by
  simp only [extend]
  rw [if_pos (List.mem_map_of_mem hc)]

theorem extend_new (hnd : ((cols ++ new).map Column.name).Nodup) {c : Column} (hc : c ∈ new) :
    extend cols p (.y c.name) = 0 := by
  simp only [extend]
  rw [if_neg]
  intro hm
  rw [List.map_append, List.nodup_append] at hnd
  exact hnd.2.2 _ hm _ (List.mem_map_of_mem hc) rfl

theorem extend_other {x : MVar} (hx : ∀ n, x ≠ .y n) : extend cols p x = p x := by
  cases x with
  | y n => exact absurd rfl (hx n)
  | _ => rfl

/-- Sums over columns do not see the new columns. -/
theorem eval_extend (hnd : ((cols ++ new).map Column.name).Nodup) (f : Column → ℚ) (q : Column → Bool) :
    LinExpr.eval (((cols ++ new).filter q).map (fun c => (f c, MVar.y c.name))) (extend cols p) =
      LinExpr.eval ((cols.filter q).map (fun c => (f c, MVar.y c.name))) p := by
  rw [List.filter_append, List.map_append, eval_append, eval_map, eval_map, eval_map]
  have h1 : (cols.filter q).map (fun c => f c * extend cols p (.y c.name)) = (cols.filter q).map (fun c => f c * p (.y c.name)) :=
    List.map_congr_left (fun c hc => by rw [extend_old (List.mem_of_mem_filter hc)])
  have h2 : (new.filter q).map (fun c => f c * extend cols p (.y c.name)) = (new.filter q).map (fun _ => (0 : ℚ)) :=
    List.map_congr_left (fun c hc => by rw [extend_new hnd (List.mem_of_mem_filter hc), mul_zero])
  rw [h1, h2]
  simp

theorem eval_extend' (hnd : ((cols ++ new).map Column.name).Nodup) (f : Column → ℚ) :
    LinExpr.eval ((cols ++ new).map (fun c => (f c, MVar.y c.name))) (extend cols p) =
      LinExpr.eval (cols.map (fun c => (f c, MVar.y c.name))) p := by
  have := eval_extend (p := p) hnd f (fun _ => true)
  simpa using this

/-- A feasible point of the relaxed problem stays one when columns are added. -/
theorem lp_extend (hnd : ((cols ++ new).map Column.name).Nodup) (hf : (M.lp cols true).Feasible p) :
    (M.lp (cols ++ new) true).Feasible (extend cols p) := by
  constructor
  · intro d hd
    have hold : ∀ d, (∀ n, d.var ≠ .y n) → d ∈ (M.lp cols true).vars → d.Holds (extend cols p) := by
      intro d hy hd
      have := hf.vars d hd
      unfold VarDecl.Holds at this ⊢
      rw [extend_other hy]
      exact this
    simp only [lp, varDecls, List.map_append, List.append_assoc, List.mem_append] at hd
    rcases hd with hd | hd | hd
    · obtain ⟨c, hc, rfl⟩ := List.mem_map.1 hd
      have := hf.vars _ (by
        simp only [lp, varDecls, List.append_assoc, List.mem_append]
        exact Or.inl hd)
      unfold VarDecl.Holds at this ⊢
      simp only [extend_old hc]
      exact this
    · obtain ⟨c, hc, rfl⟩ := List.mem_map.1 hd
      unfold VarDecl.Holds
      simp only [extend_new hnd hc, Bool.not_true, Bool.false_and, Bool.false_eq_true, if_false]
      refine ⟨fun a ha => ?_, fun b hb => ?_, fun _ => ⟨0, by simp⟩⟩
      · cases ha; exact le_refl _
      · cases hb; norm_num
    · refine hold d ?_ (by
        simp only [lp, varDecls, List.append_assoc, List.mem_append]
        exact Or.inr hd)
      rcases hd with hd | hd | hd | hd
      · obtain ⟨_, _, rfl⟩ := List.mem_map.1 hd; simp
      · obtain ⟨_, _, rfl⟩ := List.mem_map.1 hd; simp
      · obtain ⟨_, _, rfl⟩ := List.mem_map.1 hd; simp
      · split at hd
        · simp only [List.mem_singleton] at hd; subst hd; simp
        · simp at hd
  · intro c hc
    simp only [lp, List.append_assoc, List.mem_append] at hc
    rcases hc with hc | hc | hc
    · obtain ⟨v, hv, rfl⟩ := List.mem_map.1 hc
      have := hf.constrs (M.visitConstr cols true v) (by
        simp only [lp, List.append_assoc, List.mem_append, List.mem_map]
        exact Or.inl ⟨v, hv, rfl⟩)
      have e : (M.visitConstr (cols ++ new) true v).lhs.eval (extend cols p) = (M.visitConstr cols true v).lhs.eval p := by
        simp only [visitConstr, eval_append, eval_extend' hnd]
        congr 1
        · congr 1
          split <;> simp [extend]
        · split <;> simp [extend]
      unfold Constr.Holds at this ⊢
      rw [e]
      exact this
    · split at hc
      · simp at hc
      · rename_i hper
        have hc0 := hc
        obtain ⟨k, n, hkn, rfl⟩ : ∃ k n, M.numVehicles[k]? = some n ∧ c = M.fleetConstr (cols ++ new) k n := by
          obtain ⟨k, hk, rfl⟩ := List.mem_mapIdx.1 hc
          exact ⟨k, _, List.getElem?_eq_getElem hk, rfl⟩
        have := hf.constrs (M.fleetConstr cols k n) (by
          simp only [lp, List.append_assoc, List.mem_append]
          right; left
          rw [if_neg hper]
          obtain ⟨hk, he⟩ := List.getElem?_eq_some_iff.1 hkn
          exact List.mem_mapIdx.2 ⟨k, hk, by rw [he]⟩)
        have e : (M.fleetConstr (cols ++ new) k n).lhs.eval (extend cols p) = (M.fleetConstr cols k n).lhs.eval p := by
          simp only [fleetConstr, eval_append, eval_extend hnd]
          simp [extend]
        unfold Constr.Holds at this ⊢
        rw [e]
        exact this
    · split at hc
      · rename_i hsp
        obtain ⟨i, hi, rfl⟩ := List.mem_map.1 hc
        have := hf.constrs (spanConstr cols i) (by
          simp only [lp, List.append_assoc, List.mem_append]
          right; right
          rw [if_pos hsp]
          exact List.mem_map.2 ⟨i, hi, rfl⟩)
        have e : (spanConstr (cols ++ new) i).lhs.eval (extend cols p) = (spanConstr cols i).lhs.eval p := by
          simp only [spanConstr, eval_append, eval_extend hnd]
          congr 1
          split <;> simp [extend]
        unfold Constr.Holds at this ⊢
        rw [e]
        exact this
      · simp at hc

theorem diveLP_feasible_iff {fixed : List MVar} :
    (M.diveLP cols fixed).Feasible p ↔ (M.lp cols true).Feasible p ∧ ∀ x ∈ fixed, p x = 1 := by
  constructor
  · exact dive_feasible
  · rintro ⟨h1, h2⟩
    refine ⟨h1.vars, ?_⟩
    intro c hc
    rcases List.mem_append.1 hc with hc | hc
    · exact h1.constrs c hc
    · obtain ⟨x, hx, hc⟩ := List.mem_flatMap.1 hc
      simp only [fixConstrs, List.mem_cons, List.not_mem_nil, or_false] at hc
      rcases hc with rfl | rfl <;> simp [Constr.Holds, h2 x hx]

/-- The same for the diving problem, if the variables fixed are old ones. -/
theorem diveLP_extend {fixed : List MVar} (hnd : ((cols ++ new).map Column.name).Nodup)
    (hfix : ∀ n, MVar.y n ∈ fixed → n ∈ cols.map Column.name) (hf : (M.diveLP cols fixed).Feasible p) :
    (M.diveLP (cols ++ new) fixed).Feasible (extend cols p) := by
  obtain ⟨h1, h2⟩ := diveLP_feasible_iff.1 hf
  refine diveLP_feasible_iff.2 ⟨lp_extend hnd h1, ?_⟩
  intro x hx
  cases x with
  | y n => simp only [extend]; rw [if_pos (hfix n hx)]; exact h2 _ hx
  | _ => exact h2 _ hx

/-- The objective is bounded below. -/
theorem objective_bounded : ∃ b, ∀ p, (M.lp cols true).Feasible p → b ≤ (M.objective cols).eval p := by
  have key : ∀ (l : LinExpr MVar) (p : MVar → ℚ), (∀ t ∈ l, -|t.1| ≤ t.1 * p t.2) → -(l.map (fun t => |t.1|)).sum ≤ l.eval p := by
    intro l p
    induction l with
    | nil => intro _; simp
    | cons t l ih =>
      intro h
      have h1 := h t (by simp)
      have h2 := ih (fun t ht => h t (by simp [ht]))
      simp only [List.map_cons, List.sum_cons, eval_cons]
      linarith
  refine ⟨_, fun p hf => key _ p ?_⟩
  have unit : ∀ (a q : ℚ), 0 ≤ q → q ≤ 1 → -|a| ≤ a * q := by
    intro a q h0 h1
    have := neg_abs_le (a * q)
    rw [abs_mul, abs_of_nonneg h0] at this
    have h2 : |a| * q ≤ |a| * 1 := mul_le_mul_of_nonneg_left h1 (abs_nonneg a)
    linarith
  have pos : ∀ (a q : ℚ), 0 ≤ a → 0 ≤ q → -|a| ≤ a * q := by
    intro a q h0 h1
    have := mul_nonneg h0 h1
    have := abs_nonneg a
    linarith
  have hbig : (0 : ℚ) ≤ big := by norm_num [big]
  have hvar : ∀ d ∈ M.varDecls cols true, d.Holds p := hf.vars
  intro t ht
  simp only [objective, List.append_assoc, List.mem_append] at ht
  rcases ht with ht | ht | ht | ht
  · split at ht
    · rename_i hsp
      simp only [List.mem_singleton] at ht
      subst ht
      refine pos _ _ (by norm_num) ((hvar { var := .makespan, lo := some 0 } ?_).1 0 rfl)
      simp [varDecls, hsp]
    · obtain ⟨c, hc, rfl⟩ := List.mem_map.1 ht
      have := hvar { var := .y c.name, lo := some 0, up := some (if !true && isNon c.name then 0 else 1),
                     isInt := !true || M.globalSpan } (by
        simp only [varDecls, List.append_assoc, List.mem_append]
        exact Or.inl (List.mem_map.2 ⟨c, hc, rfl⟩))
      exact unit _ _ (this.1 0 rfl) (this.2.1 1 (by simp))
  · obtain ⟨v, hv, rfl⟩ := List.mem_map.1 ht
    have := hvar { var := .drop v, lo := some 0, up := some 1, isInt := true } (by
      simp only [varDecls, List.append_assoc, List.mem_append]
      exact Or.inr (Or.inl (List.mem_map.2 ⟨v, hv, rfl⟩)))
    exact unit _ _ (this.1 0 rfl) (this.2.1 1 rfl)
  · obtain ⟨v, hv, rfl⟩ := List.mem_map.1 ht
    exact pos _ _ hbig (dummy_nonneg hf hv)
  · obtain ⟨k, hk, rfl⟩ := List.mem_map.1 ht
    have := hvar { var := .bound k, lo := some 0, up := if true then none else some 0 } (by
      simp only [varDecls, List.append_assoc, List.mem_append]
      exact Or.inr (Or.inr (Or.inr (Or.inl (List.mem_map.2 ⟨k, hk, rfl⟩)))))
    exact pos _ _ hbig (this.1 0 rfl)

/-- The answer for a feasible diving problem is feasible. -/
theorem dive_answer {env : Env} (hd : DiveOk env) (hm : ∀ t, MasterSolverSound (env.master t)) {fixed : List MVar} (t : Nat)
    (hf : ∃ p, (M.diveLP cols fixed).Feasible p) :
    (M.diveLP cols fixed).Feasible (env.master t (M.diveLP cols fixed)).point := by
  refine hm t _ (hd.solved t _ hf ?_)
  obtain ⟨b, hb⟩ := objective_bounded (M := M) (cols := cols)
  exact ⟨b, fun p hp => hb p (diveLP_feasible_iff.1 hp).1⟩

/-- What is fixed is a variable, and the problem with it fixed is solvable. -/
theorem runDive_fixed {vars : List MVar} {st st' : DiveState} {p : MVar → ℚ} {solvable : MVar → Bool} {x : Option MVar}
    (h : runDive vars st p solvable = .ok (x, st')) : ∀ y ∈ x, y ∈ vars ∧ solvable y = true := by
  unfold runDive at h
  split at h
  · cases h; simp
  · split at h
    · cases h; simp
    · rename_i z zs hz
      simp only at h
      split at h
      · rename_i hs
        cases h
        intro y hy
        simp only [Option.mem_def, Option.some.injEq] at hy
        subst hy
        refine ⟨?_, hs⟩
        have hmem : ∀ (l : List MVar) (b : MVar), leastFractional p b l ∈ b :: l := by
          intro l
          unfold leastFractional
          induction l with
          | nil => intro b; simp
          | cons c l ih =>
            intro b
            simp only [List.foldl_cons]
            split
            · exact List.mem_cons_of_mem _ (ih c)
            · rcases List.mem_cons.1 (ih b) with h | h
              · rw [h]; simp
              · exact List.mem_cons_of_mem _ (List.mem_cons_of_mem _ h)
        have := hmem zs z
        rw [← hz] at this
        exact (List.mem_filter.1 this).1
      · split at h
        · cases h
        · cases h; simp

theorem allVars_y {n : ColName} (h : MVar.y n ∈ M.allVars cols) : n ∈ cols.map Column.name := by
  unfold allVars varDecls at h
  simp only [List.map_append, List.map_map, List.append_assoc, List.mem_append, List.mem_map, Function.comp_apply,
    MVar.y.injEq, reduceCtorEq, and_false, exists_false, false_or] at h
  rcases h with ⟨c, hc, he⟩ | h
  · exact List.mem_map.2 ⟨c, hc, he⟩
  · obtain ⟨d, hd, he⟩ := h
    split at hd
    · simp only [List.mem_singleton] at hd; subst hd; simp at he
    · simp at hd

end Master

namespace Solve

variable {cfg : SolveCfg} {env : Env}

theorem nextStrategy_fixed {st st' : SolveState} {cost : ℚ} {h : Heur} (hn : nextStrategy cfg env st cost = .ok (h, st')) :
    st'.fixed = st.fixed := by
  unfold nextStrategy at hn
  split at hn
  · split at hn
    · unfold nextHyper at hn
      split at hn
      · cases hn
      · split at hn
        · cases hn; rfl
        · split at hn
          · cases hn
          · cases hn; rfl
    · cases hn; rfl
  · cases hn; rfl

theorem count_fixed {dive : Bool} {cost : ℚ} {st st' : SolveState} (h : count dive cost st = .ok st') : st'.fixed = st.fixed := by
  unfold count at h
  simp only at h
  split at h
  · split at h
    · cases h
    · cases h; rfl
  · cases h; rfl

/-- What an iteration keeps of the master problem just solved. -/
theorem findColumns_point {dive : Bool} {st st' : SolveState} (hinv : Inv st) (h : findColumns cfg env dive st = .ok st') :
    Inv st' ∧ (∃ new, st'.cols = st.cols ++ new) ∧ ∃ d cost st1, solveMaster cfg env dive st = .ok (d, cost, st1) ∧
      st'.fixed = st1.fixed ∧ st'.point = st1.point ∧ st'.solved = st.cols.map Column.name := by
  obtain ⟨d, cost, st1, hh, st2, st3, h1, h2, h3, h4⟩ := findColumns_inv h
  obtain ⟨m1, m2, _, _, _, _, _, m8⟩ := solveMaster_step h1
  obtain ⟨n1, n2, _, _, _, _, n7, n8, _⟩ := nextStrategy_step h2
  obtain ⟨c1, c2, _, _, _, c6, c7, _⟩ := count_step h4
  have hinv2 : Inv st2 := by
    unfold Inv
    rw [n1, n2, m1, m2]
    exact hinv
  obtain ⟨v1, ⟨new, v2, _⟩, v4, _⟩ := vehicleLoop_step (Q := fun _ => True) (PriceOk.true) (Or.inr (fun _ => trivial))
    (fun k hk => List.mem_range.1 hk) hinv2 h3
  refine ⟨?_, ⟨new, by rw [c1, v2, n1, m1]⟩, d, cost, st1, h1, ?_, ?_, ?_⟩
  · unfold Inv
    rw [c1, c2]
    exact v1
  · rw [count_fixed h4, v4.fixed, nextStrategy_fixed h2]
  · rw [c7, v4.point, n8]
  · rw [c6, v4.solved, n7, m8, hinv.2]

/-- While diving, the problem stays feasible. -/
structure Diving (cfg : SolveCfg) (st : SolveState) : Prop where
  inv : Inv st
  fixed : ∀ n, MVar.y n ∈ st.fixed → n ∈ st.cols.map Column.name
  feasible : ∃ p, (cfg.M.diveLP st.cols st.fixed).Feasible p

theorem relaxed_step (hm : ∀ t, MasterSolverSound (env.master t)) {st st' : SolveState} (hinv : Inv st) (hfix : st.fixed = [])
    (h : findColumns cfg env false st = .ok st') : Diving cfg st' ∧ st'.fixed = [] := by
  obtain ⟨h1, ⟨new, h2⟩, d, cost, st1, h3, h4, h5, h6⟩ := findColumns_point hinv h
  unfold solveMaster solveRelaxed at h3
  simp only [Bool.false_eq_true, if_false] at h3
  split at h3
  · rename_i hopt
    simp only [Except.ok.injEq, Prod.mk.injEq] at h3
    obtain ⟨_, _, rfl⟩ := h3
    have hf := hm _ _ hopt
    rw [hinv.2] at hf
    have hfixed : st'.fixed = [] := by rw [h4]; exact hfix
    refine ⟨⟨h1, by simp [hfixed], ?_⟩, hfixed⟩
    rw [hfixed, h2]
    refine ⟨_, Master.diveLP_extend (p := _) (by rw [← h2]; exact h1.1.nodup) (by simp) (Master.diveLP_feasible_iff.2 ⟨hf, by simp⟩)⟩
  · cases h3

theorem dive_step (hd : DiveOk env) (hm : ∀ t, MasterSolverSound (env.master t)) {st st' : SolveState} (hst : Diving cfg st)
    (h : findColumns cfg env true st = .ok st') :
    Diving cfg st' ∧ ∃ pool, pool <+: st'.cols ∧ st'.solved = pool.map Column.name ∧
      (cfg.M.diveLP pool st'.fixed).Feasible st'.point := by
  obtain ⟨h1, ⟨new, h2⟩, d, cost, st1, h3, h4, h5, h6⟩ := findColumns_point hst.inv h
  unfold solveMaster solveDive at h3
  simp only [if_true] at h3
  split at h3
  · cases h3
  · rename_i x ds hx
    simp only [Except.ok.injEq, Prod.mk.injEq] at h3
    obtain ⟨_, _, rfl⟩ := h3
    rw [hst.inv.2] at hx h5
    simp only at h4 h5
    have hrun := Master.runDive_fixed hx
    have hfeas : ∃ p, (cfg.M.diveLP st.cols st'.fixed).Feasible p := by
      rw [h4]
      cases x with
      | none => simpa using hst.feasible
      | some y => exact hd.solvable _ _ (hrun y rfl).2
    have hfix : ∀ n, MVar.y n ∈ st'.fixed → n ∈ st.cols.map Column.name := by
      rw [h4]
      intro n hn
      rcases List.mem_append.1 hn with hn | hn
      · exact hst.fixed n hn
      · exact Master.allVars_y (hrun _ (by simpa using hn)).1
    refine ⟨⟨h1, ?_, ?_⟩, st.cols, ⟨new, h2.symm⟩, h6, ?_⟩
    · intro n hn
      rw [h2, List.map_append]
      exact List.mem_append_left _ (hfix n hn)
    · obtain ⟨p, hp⟩ := hfeas
      rw [h2]
      exact ⟨_, Master.diveLP_extend (by rw [← h2]; exact h1.1.nodup) hfix hp⟩
    · rw [h5, ← h4]
      exact Master.dive_answer hd hm _ hfeas

/-- The dual values after diving come from a solved diving problem. -/
theorem dive_duals (hd : DiveOk env) {st st1 : SolveState} {d : Duals} {cost : ℚ} (hst : Diving cfg st)
    (h : solveMaster cfg env true st = .ok (d, cost, st1)) :
    (env.master (st.tick + 1) (cfg.M.diveLP st.cols st1.fixed)).optimal = true ∧
      d = cfg.M.duals st.cols (env.master (st.tick + 1) (cfg.M.diveLP st.cols st1.fixed)) := by
  unfold solveMaster solveDive at h
  simp only [if_true] at h
  split at h
  · cases h
  · rename_i x ds hx
    simp only [Except.ok.injEq, Prod.mk.injEq] at h
    obtain ⟨rfl, _, rfl⟩ := h
    rw [hst.inv.2] at hx
    have hrun := Master.runDive_fixed hx
    have hfeas : ∃ p, (cfg.M.diveLP st.cols (st.fixed ++ x.toList)).Feasible p := by
      cases x with
      | none => simpa using hst.feasible
      | some y => exact hd.solvable _ _ (hrun y rfl).2
    refine ⟨?_, by rw [hst.inv.2]⟩
    refine hd.solved _ _ hfeas ?_
    obtain ⟨b, hb⟩ := Master.objective_bounded (M := cfg.M) (cols := st.cols)
    exact ⟨b, fun p hp => hb p (Master.diveLP_feasible_iff.1 hp).1⟩

/-- A run with diving reports columns with the property `Q`, selected by a feasible point of a diving problem over some of them. -/
theorem run_dive {Q : Column → Prop} {st st' : SolveState} {f : Final} {old : List Column} {fuel : Nat}
    (hnum : Numbered st.cols) (hmc : st.mcols = st.cols) (hfix : st.fixed = []) (hmore : st.more = true) (hinit : ∀ c ∈ st.cols, Q c)
    (hprice : ∀ dive stm d cost st1, (dive = true → Diving cfg stm) → solveMaster cfg env dive stm = .ok (d, cost, st1) →
      PriceOk cfg env d Q)
    (hd : DiveOk env) (hm : ∀ t, MasterSolverSound (env.master t))
    (h : run cfg env true old fuel st = .ok (some (st', f))) :
    ∃ pool fixed p, (cfg.M.diveLP pool fixed).Feasible p ∧ f.graphs = Master.selected pool p ∧
      f.dropped = (if cfg.M.dropPenalty = 0 then none else some (cfg.M.dropped p)) ∧ (∀ c ∈ pool, Q c) := by
  unfold run at h
  cases h1 : columnGeneration cfg env false fuel st with
  | error e => simp [h1] at h
  | ok r =>
  cases r with
  | none => simp [h1] at h
  | some st1 =>
  simp only [h1, if_true] at h
  obtain ⟨n1, _, ht1, hend1⟩ := columnGeneration_trace h1
  obtain ⟨i1, _, q1⟩ := Trace.pool (Q := Q) ⟨hnum, hmc⟩ (fun m stm d cost st1 _ _ hs => hprice false stm d cost st1 (fun hf => (by cases hf)) hs) ht1
  have hq1 : ∀ c ∈ st1.cols, Q c := fun c hc => (q1 c hc).elim (hinit c) id
  have key1 : ∀ n s, Trace cfg env false st n s → Inv s ∧ s.fixed = [] ∧ (0 < n → Diving cfg s) := by
    intro n s ht
    induction ht with
    | zero => exact ⟨⟨hnum, hmc⟩, hfix, fun h => absurd h (lt_irrefl _)⟩
    | snoc g1 g2 g3 g4 ih =>
      obtain ⟨a, b⟩ := relaxed_step hm ih.1 ih.2.1 g4
      exact ⟨a.inv, b, fun _ => a⟩
  obtain ⟨_, k2, k3⟩ := key1 _ _ ht1
  have hn1 : 0 < n1 := by
    rcases hend1 with he | he
    · cases ht1 with
      | zero => rw [hmore] at he; cases he
      | snoc => omega
    · exact he.1
  have hdv : Diving cfg { st1 with more := true } := by
    obtain ⟨a, b, c⟩ := k3 hn1
    exact ⟨a, b, c⟩
  cases h2 : columnGeneration cfg env true fuel { st1 with more := true } with
  | error e => simp [h2] at h
  | ok r =>
  cases r with
  | none => simp [h2] at h
  | some st2 =>
  simp only [h2, Except.ok.injEq, Option.some.injEq, Prod.mk.injEq] at h
  obtain ⟨rfl, rfl⟩ := h
  obtain ⟨n2, _, ht2, hend2⟩ := columnGeneration_trace h2
  have key2 : ∀ n s, Trace cfg env true { st1 with more := true } n s → Diving cfg s ∧
      (0 < n → ∃ pool, pool <+: s.cols ∧ s.solved = pool.map Column.name ∧ (cfg.M.diveLP pool s.fixed).Feasible s.point) := by
    intro n s ht
    induction ht with
    | zero => exact ⟨hdv, fun h => absurd h (lt_irrefl _)⟩
    | snoc g1 g2 g3 g4 ih =>
      obtain ⟨a, b⟩ := dive_step hd hm ih.1 g4
      exact ⟨a, fun _ => b⟩
  obtain ⟨i2, _, q2⟩ := Trace.pool (Q := Q) hdv.inv (fun m stm d cost st1 htm _ hs =>
    hprice true stm d cost st1 (fun _ => (key2 _ _ htm).1) hs) ht2
  have hq2 : ∀ c ∈ st2.cols, Q c := fun c hc => (q2 c hc).elim (hq1 c) id
  have hn2 : 0 < n2 := by
    rcases hend2 with he | he
    · cases ht2 with
      | zero => cases he
      | snoc => omega
    · exact he.1
  obtain ⟨k4, k5⟩ := key2 _ _ ht2
  obtain ⟨pool, p1, p2, p3⟩ := k5 hn2
  refine ⟨pool, st2.fixed, st2.point, p3, ?_, rfl, fun c hc => hq2 c (p1.subset hc)⟩
  obtain ⟨rest, hrest⟩ := p1
  have hnd := k4.inv.1.nodup
  simp only [readOff, Master.selected, p2, ← hrest]
  rw [← hrest, List.map_append, List.nodup_append] at hnd
  rw [List.filter_append]
  have e1 : pool.filter (fun c => decide (c.name ∈ pool.map Column.name ∧ st2.point (.y c.name) > 0)) =
      pool.filter (fun c => decide (st2.point (.y c.name) > 0)) := by
    apply List.filter_congr
    intro c hc
    simp [List.mem_map_of_mem (f := Column.name) hc]
  have e2 : rest.filter (fun c => decide (c.name ∈ pool.map Column.name ∧ st2.point (.y c.name) > 0)) = [] := by
    rw [List.filter_eq_nil_iff]
    intro c hc
    simp only [decide_eq_true_eq, not_and]
    intro hin
    exact absurd rfl (hnd.2.2 _ hin _ (List.mem_map_of_mem hc))
  rw [e1, e2, List.append_nil]

theorem PriceOk.and {d : Duals} {Q Q' : Column → Prop} (h : PriceOk cfg env d Q) (h' : PriceOk cfg env d Q') :
    PriceOk cfg env d (fun c => Q c ∧ Q' c) := by
  refine ⟨?_, ?_⟩
  · intro k hk t route cols s cols' he hp c hc
    rcases h.1 k hk t route cols s cols' he hp c hc with a | a
    · exact Or.inl a
    · exact (h'.1 k hk t route cols s cols' he hp c hc).imp_right (fun b => ⟨a, b⟩)
  · intro k hk st st' hp c hc
    rcases h.2 k hk st st' hp c hc with a | a
    · exact Or.inl a
    · exact (h'.2 k hk st st' hp c hc).imp_right (fun b => ⟨a, b⟩)

theorem greedy_name {g : GreedyPricing} {keys : List Node} {rand : Nat → Nat → Nat} {fuel nRuns : Nat}
    {cols cols' : List Column} {more : Bool} (h : g.solve keys rand fuel nRuns cols = .ok (cols', more)) :
    ∀ c ∈ cols', c ∈ cols ∨ Master.isNon c.name = false := by
  have key := foldlM_inv (P := fun st : List Column × Bool => ∀ c ∈ st.1, c ∈ cols ∨ Master.isNon c.name = false) _ _ _
    (fun c hc => Or.inl hc) ?_ h
  · exact key
  · rintro st job st' _ hst hstep
    unfold GreedyPricing.attempt at hstep
    split at hstep
    · simp only [Except.ok.injEq] at hstep; subst hstep; exact hst
    · split at hstep
      · unfold GreedyPricing.addRoute at hstep
        simp only at hstep
        split at hstep
        · cases hstep
        · rename_i cols1 hcols
          split at hcols
          · cases hcols
          · split at hcols
            · cases hcols
            · simp only [Except.ok.injEq] at hcols hstep
              subst hcols
              subst hstep
              intro c hc
              rcases List.mem_append.1 hc with hc | hc
              · exact hst c hc
              · simp only [List.mem_singleton] at hc
                subst hc
                exact Or.inr rfl
      · simp only [Except.ok.injEq] at hstep; subst hstep; exact hst

theorem lp_name {q : PricingLP} {run timeUp : Bool} {keys : List Node} {solver : LP PVar → PricingLP.Answer}
    {cols cols' : List Column} (h : q.solve run timeUp keys solver cols = .ok (cols', true)) :
    ∀ c ∈ cols', c ∈ cols ∨ Master.isNon c.name = false := by
  unfold PricingLP.solve at h
  split at h
  · simp at h
  · split at h
    · cases h
    · split at h
      · simp at h
      · split at h
        · split at h
          · cases h
          · rename_i cols2 hadd
            simp only [Except.ok.injEq, Prod.mk.injEq, and_true] at h
            subst h
            unfold PricingLP.addRoute at hadd
            split at hadd
            · cases hadd
            · split at hadd
              · cases hadd
              · simp only [Except.ok.injEq] at hadd
                rw [← hadd]
                intro c hc
                rcases List.mem_append.1 hc with hc | hc
                · exact Or.inl hc
                · simp only [List.mem_singleton] at hc
                  subst hc
                  exact Or.inr rfl
        · simp at h

/-- With `elementary`, which diving sets, no column repeats customers. -/
theorem price_elementary {d : Duals} (hel : cfg.elementary = true)
    (hsound : cfg.cspy = true → ∀ t q, CspySound q (env.cspy t q)) :
    PriceOk cfg env d (fun c => Master.isNon c.name = false) := by
  constructor
  · intro k hk t route cols s cols' _ h c hc
    unfold price at h
    split at h
    · cases h
    · rename_i w S hs
      split at h
      · rename_i hcs
        obtain ⟨m, e, c0, path, col, hform, horacle, hruns, hneg, hcol, hnew, rfl⟩ := cspy_solve_inv h
        rcases List.mem_append.1 hc with hc | hc
        · exact Or.inl hc
        · right
          simp only [List.mem_singleton] at hc
          subst hc
          have he : e = true := by simpa [Cspy.runs, hel] using hruns
          have hnd := (hsound hcs t _ m e c0 path horacle).2.2.2.2.1 he
          unfold Cspy.createRoute at hcol
          simp only at hcol
          split at hcol
          · cases hcol
          · split at hcol
            · cases hcol
            · simp only [Except.ok.injEq] at hcol
              rw [← hcol]
              simp [hnd, Master.isNon]
      · exact lp_name h c hc
  · intro k hk st st' h c hc
    unfold greedyPhase at h
    split at h
    · simp only [py_bind_ok] at h
      obtain ⟨p, hp, cap, hcap, r, hr, h⟩ := h
      have hcols : st'.cols = r.1 := by
        split at h
        · exact addMissing_cols h
        · simp only [pure, Except.pure, Except.ok.injEq] at h
          rw [← h]
      rw [hcols] at hc
      exact greedy_name (more := r.2) hr c hc
    · cases h
      exact Or.inl hc

end Solve

end Vrpy
