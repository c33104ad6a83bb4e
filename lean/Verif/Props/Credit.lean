import Verif.Props.SolveCases
import Verif.Props.Hyper

/-!
# C74: who found which column
-/

namespace Vrpy

open Spec

/-- A pricing problem of the heuristic `h` yielded the column `c`. -/
def Spec.FoundBy (cfg : SolveCfg) (env : Env) (h : Heur) (c : Column) : Prop :=
  ∃ d k t j cols, k < cfg.K ∧ j ∈ Solve.jobs cfg h cols ∧ Solve.price cfg env t d k j.1 cols j.2 = .ok (cols ++ [c], true)

/-- The randomised greedy pricing yielded the column `c`. -/
def Spec.FoundGreedily (cfg : SolveCfg) (env : Env) (c : Column) : Prop :=
  Solve.usesGreedy cfg = true ∧ ∃ d k, k < cfg.K ∧ ∃ st st', Solve.greedyPhase cfg env d k st = .ok st' ∧ c ∈ st'.cols ∧ c ∉ st.cols

/-- All columns carry the right label: the first columns and those found by greedy pricing none, the others the heuristic
whose pricing problem found them. -/
structure Spec.Labelled (cfg : SolveCfg) (env : Env) (old : List Column) (st : SolveState) : Prop where
  first : ∀ c ∈ old, c ∈ st.cols ∧ dget st.labels c.name = none
  found : ∀ c ∈ st.cols, c ∉ old → (∃ h, dget st.labels c.name = some h ∧ FoundBy cfg env h c) ∨
    (dget st.labels c.name = none ∧ FoundGreedily cfg env c)
  known : ∀ n, dget st.labels n ≠ none → n ∈ st.cols.map Column.name

namespace Solve

variable {cfg : SolveCfg} {env : Env} {dive : Bool}

/-- The clock may have been read. -/
def ClockRead (h h' : Option Hyper) : Prop := h' = h ∨ h' = h.map (fun h => { h with timed := true })

theorem clockRead_stop (h : Option Hyper) : ClockRead h (stopClock cfg h) := by
  unfold stopClock
  split
  · exact Or.inr rfl
  · exact Or.inl rfl

theorem ClockRead.trans {a b c : Option Hyper} (h1 : ClockRead a b) (h2 : ClockRead b c) : ClockRead a c := by
  rcases h1 with rfl | rfl
  · exact h2
  · rcases h2 with rfl | rfl
    · exact Or.inr rfl
    · exact Or.inr (by cases a <;> rfl)

/-- A loop over vehicle types: nothing is found and the labels stay, or one column is found, the last one, and labelled. -/
theorem vehicleLoop_labels {d : Duals} {h : Heur} {ks : List Nat} (hks : ∀ k ∈ ks, k < cfg.K) {st st' : SolveState}
    (hinv : Inv st) (hl : vehicleLoop cfg env d h ks st = .ok st') :
    ClockRead st.hyper st'.hyper ∧ ∃ greedy, (∀ c ∈ greedy, FoundGreedily cfg env c) ∧
      ((st'.labels = st.labels ∧ st'.cols = st.cols ++ greedy ∧ (ks ≠ [] → st'.more = false)) ∨
       ∃ c, st'.more = true ∧ st'.labels = dset st.labels c.name h ∧ st'.cols = st.cols ++ greedy ++ [c] ∧
         FoundBy cfg env h c) := by
  induction ks generalizing st with
  | nil =>
    simp only [vehicleLoop, Except.ok.injEq] at hl
    subst hl
    exact ⟨Or.inl rfl, [], by simp, Or.inl ⟨rfl, by simp, by simp⟩⟩
  | cons k ks ih =>
    have hk := hks k List.mem_cons_self
    simp only [vehicleLoop] at hl
    cases hg : greedyPhase cfg env d k st with
    | error e => simp [hg] at hl
    | ok st1 =>
      simp only [hg] at hl
      obtain ⟨hinv1, ⟨new1, hnew1⟩, _, g2, g3, g4, g5, g6, g7, g8, g9, g10⟩ := greedyPhase_step hinv hg
      have hnd1 : (st1.cols.map Column.name).Nodup := hinv1.1.nodup
      have hgreedy : ∀ c ∈ new1, FoundGreedily cfg env c := by
        intro c hc
        refine ⟨?_, d, k, hk, st, st1, hg, by rw [hnew1]; exact List.mem_append_right _ hc, ?_⟩
        · by_contra hu
          unfold greedyPhase at hg
          rw [if_neg hu] at hg
          simp only [Except.ok.injEq] at hg
          subst hg
          have : new1 = [] := by simpa using hnew1
          rw [this] at hc
          cases hc
        · intro hc'
          rw [hnew1, List.map_append] at hnd1
          exact (List.nodup_append.1 hnd1).2.2 _ (List.mem_map_of_mem hc') _ (List.mem_map_of_mem hc) rfl
      cases hp : priceAll cfg env d k (jobs cfg h st1.cols) st1.tick st1.cols with
      | error e => simp [hp] at hl
      | ok r =>
        obtain ⟨cols2, b, t2⟩ := r
        simp only [hp] at hl
        cases b with
        | true =>
          rcases priceAll_step hp with ⟨hf, _⟩ | ⟨_, j, hj, t, hpr⟩
          · cases hf
          · rcases price_step hpr with ⟨hf, _⟩ | ⟨_, c, hc, hidx, _⟩
            · cases hf
            · subst hc
              simp only [register, List.getLast?_append, List.getLast?_singleton, Option.or_some] at hl
              obtain ⟨_, rfl⟩ := addToMaster_ok hl
              refine ⟨Or.inl (by simp only; rw [g5]), new1, hgreedy, Or.inr ⟨c, rfl, by simp only; rw [g7], by simp only; rw [hnew1],
                d, k, t, j, st1.cols, hk, hj, hpr⟩⟩
        | false =>
          rcases priceAll_step hp with ⟨_, rfl, _⟩ | ⟨hf, _⟩
          · obtain ⟨i1, gr, i2, i3⟩ := ih (fun k' hk' => hks k' (List.mem_cons_of_mem _ hk')) (by exact hinv1) hl
            simp only at i1 i3
            refine ⟨(by rw [← g5]; exact (clockRead_stop _).trans i1), new1 ++ gr, ?_, ?_⟩
            · intro c hc
              rcases List.mem_append.1 hc with hc | hc
              · exact hgreedy c hc
              · exact i2 c hc
            · rcases i3 with ⟨j1, j2, j3⟩ | ⟨c, j1, j2, j3, j4⟩
              · refine Or.inl ⟨j1.trans g7, by rw [j2, hnew1, List.append_assoc], fun _ => ?_⟩
                cases ks with
                | nil =>
                  simp only [vehicleLoop, Except.ok.injEq] at hl
                  subst hl
                  rfl
                | cons _ _ => exact j3 (by simp)
              · exact Or.inr ⟨c, j1, by rw [j2, g7], by rw [j3, hnew1]; simp only [List.append_assoc], j4⟩
          · cases hf

/-- One iteration. -/
theorem labelled_step {first : List Column} {st st' : SolveState} (hinv : Inv st) (hst : Labelled cfg env first st)
    (h : findColumns cfg env dive st = .ok st') : Labelled cfg env first st' := by
  obtain ⟨d, cost, st1, hh, st2, st3, h1, h2, h3, h4⟩ := findColumns_inv h
  obtain ⟨a1, a2, _, _, _, _, a7, _⟩ := solveMaster_step h1
  obtain ⟨b1, b2, _, _, _, b6, _⟩ := nextStrategy_step h2
  obtain ⟨c1, _, _, _, c5, _⟩ := count_step h4
  have hinv2 : Inv st2 := ⟨by rw [b1, a1]; exact hinv.1, by rw [b2, a2, b1, a1]; exact hinv.2⟩
  obtain ⟨hinv3, _⟩ := vehicleLoop_step (Q := fun _ => True) ⟨fun _ _ _ _ _ _ _ _ _ _ _ => Or.inr trivial, fun _ _ _ _ _ _ _ => Or.inr trivial⟩
    (Or.inr fun _ => trivial) (fun k hk => List.mem_range.1 hk) hinv2 h3
  obtain ⟨_, gr, g1, g2⟩ := vehicleLoop_labels (fun k hk => List.mem_range.1 hk) hinv2 h3
  have hnd := hinv3.1.nodup
  have e1 : st2.cols = st.cols := b1.trans a1
  have e2 : st2.labels = st.labels := b6.trans a7
  rw [e1, e2] at g2
  have hfirst : ∀ c, c ∉ st.cols → c ∉ first := fun c hc hf => hc (hst.first c hf).1
  rcases g2 with ⟨g2, g3, _⟩ | ⟨c, _, g2, g3, g4⟩
  · rw [g3, List.map_append] at hnd
    have hno : ∀ c ∈ gr, dget st.labels c.name = none := by
      intro c hc
      by_contra hn
      exact (List.nodup_append.1 hnd).2.2 _ (hst.known _ hn) _ (List.mem_map_of_mem hc) rfl
    refine ⟨?_, ?_, ?_⟩
    · intro c hc
      rw [c1, c5, g2, g3]
      exact ⟨List.mem_append_left _ (hst.first c hc).1, (hst.first c hc).2⟩
    · intro c hc hf
      rw [c1, g3] at hc
      rw [c5, g2]
      rcases List.mem_append.1 hc with hc | hc
      · exact hst.found c hc hf
      · exact Or.inr ⟨hno c hc, g1 c hc⟩
    · intro n hn
      rw [c5, g2] at hn
      rw [c1, g3, List.map_append]
      exact List.mem_append_left _ (hst.known n hn)
  · rw [g3, List.map_append, List.map_append] at hnd
    obtain ⟨n1, _, n3⟩ := List.nodup_append.1 hnd
    have hno : ∀ x ∈ gr, dget st.labels x.name = none := by
      intro x hc
      by_contra hn
      exact (List.nodup_append.1 n1).2.2 _ (hst.known _ hn) _ (List.mem_map_of_mem hc) rfl
    have hne : ∀ x ∈ st.cols ++ gr, x.name ≠ c.name := fun x hx =>
      n3 _ (by rw [← List.map_append]; exact List.mem_map_of_mem hx) _ (by simp)
    refine ⟨?_, ?_, ?_⟩
    · intro x hx
      obtain ⟨f1, f2⟩ := hst.first x hx
      rw [c1, c5, g2, g3, dget_dset, if_neg (hne x (List.mem_append_left _ f1))]
      exact ⟨List.mem_append_left _ (List.mem_append_left _ f1), f2⟩
    · intro x hx hf
      rw [c1, g3] at hx
      rw [c5, g2, dget_dset]
      rcases List.mem_append.1 hx with hx | hx
      · rw [if_neg (hne x hx)]
        rcases List.mem_append.1 hx with hx | hx
        · exact hst.found x hx hf
        · exact Or.inr ⟨hno x hx, g1 x hx⟩
      · rw [List.mem_singleton.1 hx, if_pos rfl]
        exact Or.inl ⟨hh, rfl, g4⟩
    · intro n hn
      rw [c5, g2, dget_dset] at hn
      rw [c1, g3, List.map_append, List.map_append]
      split at hn
      · rename_i he
        rw [he]
        simp
      · exact List.mem_append_left _ (List.mem_append_left _ (hst.known n hn))

theorem findColumns_keeps {st st' : SolveState} (hinv : Inv st) (h : findColumns cfg env dive st = .ok st') : Inv st' := by
  obtain ⟨d, cost, st1, hh, st2, st3, h1, h2, h3, h4⟩ := findColumns_inv h
  obtain ⟨a1, a2, _⟩ := solveMaster_step h1
  obtain ⟨b1, b2, _⟩ := nextStrategy_step h2
  obtain ⟨c1, c2, _⟩ := count_step h4
  have hinv2 : Inv st2 := ⟨by rw [b1, a1]; exact hinv.1, by rw [b2, a2, b1, a1]; exact hinv.2⟩
  obtain ⟨hinv3, _⟩ := vehicleLoop_step (Q := fun _ => True)
    ⟨fun _ _ _ _ _ _ _ _ _ _ _ => Or.inr trivial, fun _ _ _ _ _ _ _ => Or.inr trivial⟩
    (Or.inr fun _ => trivial) (fun k hk => List.mem_range.1 hk) hinv2 h3
  exact ⟨by rw [c1]; exact hinv3.1, by rw [c1, c2]; exact hinv3.2⟩

theorem labelled_trace {old : List Column} {st stm : SolveState} {n : Nat} (hinv : Inv st) (hst : Labelled cfg env old st)
    (ht : Trace cfg env dive st n stm) : Inv stm ∧ Labelled cfg env old stm := by
  induction ht with
  | zero => exact ⟨hinv, hst⟩
  | snoc _ _ _ h ih => exact ⟨findColumns_keeps ih.1 h, labelled_step ih.1 ih.2 h⟩

theorem labelled_start {st : SolveState} (hlab : st.labels = []) : Labelled cfg env st.cols st :=
  ⟨fun c hc => ⟨hc, by rw [hlab]; rfl⟩, fun c hc hn => absurd hc hn, fun n hn => absurd (by rw [hlab]; rfl) hn⟩

/-- **C74, labels.** In all states of column generation, the first columns and those found by greedy pricing carry no label, and all
others carry the name of the heuristic one of whose pricing problems found them. -/
theorem C74_labels {st stm : SolveState} {n : Nat} (hinv : Inv st) (hlab : st.labels = [])
    (ht : Trace cfg env dive st n stm) : Labelled cfg env st.cols stm :=
  (labelled_trace hinv (labelled_start hlab) ht).2

/-- **C74, labels**, at the end of a run, also with diving. -/
theorem C74_labels_run {st st' : SolveState} {f : Final} {old : List Column} {fuel : Nat} (hinv : Inv st) (hlab : st.labels = [])
    (h : run cfg env dive old fuel st = .ok (some (st', f))) : Labelled cfg env st.cols st' := by
  unfold run at h
  cases h1 : columnGeneration cfg env false fuel st with
  | error e => simp only [h1] at h; cases h
  | ok r =>
    cases r with
    | none => simp only [h1, Except.ok.injEq] at h; cases h
    | some st1 =>
      simp only [h1] at h
      obtain ⟨n, _, ht, _⟩ := columnGeneration_trace h1
      obtain ⟨hinv1, hl1⟩ := labelled_trace hinv (labelled_start hlab) ht
      cases dive with
      | true =>
        simp only [if_true] at h
        cases h2 : columnGeneration cfg env true fuel { st1 with more := true } with
        | error e => simp only [h2] at h; cases h
        | ok r =>
          cases r with
          | none => simp only [h2, Except.ok.injEq] at h; cases h
          | some st2 =>
            simp only [h2, Except.ok.injEq, Option.some.injEq, Prod.mk.injEq] at h
            obtain ⟨n2, _, ht2, _⟩ := columnGeneration_trace h2
            rw [← h.1]
            exact (labelled_trace (st := { st1 with more := true }) (by exact hinv1) ⟨hl1.first, hl1.found, hl1.known⟩ ht2).2
      | false =>
        simp only [Bool.false_eq_true, if_false] at h
        unfold solveMIP at h
        simp only at h
        split at h
        · cases h
        · rename_i r hr
          simp only [Except.ok.injEq, Option.some.injEq] at h
          subst h
          split at hr
          · split at hr
            · simp only [Except.ok.injEq, Prod.mk.injEq] at hr
              rw [← hr.1]
              exact ⟨hl1.first, hl1.found, hl1.known⟩
            · cases hr
          · simp only [Except.ok.injEq, Prod.mk.injEq] at hr
            rw [← hr.1]
            exact hl1

/-- **C74, distribution.** What the hyper-heuristic is told counts every selected column exactly once. -/
theorem C74_distribution (st : SolveState) :
    (distribution st).total = (st.cols.filter (fun c => st.point (.y c.name) > 0)).length := by
  unfold Active.total distribution
  simp only [Heur.all, List.map_cons, List.map_nil, List.sum_cons, List.sum_nil]
  induction st.cols with
  | nil => rfl
  | cons c cs ih =>
    by_cases hp : st.point (.y c.name) > 0
    · cases hl : dget st.labels c.name with
      | none => simp [hp, hl] at ih ⊢; omega
      | some g => cases g <;> simp [hp, hl] at ih ⊢ <;> omega
    · simp [hp] at ih ⊢; omega

/-- The columns with the label `h`. -/
def _root_.Vrpy.Spec.labelledWith (st : SolveState) (h : Heur) : List Column :=
  st.cols.filter (fun c => dget st.labels c.name = some h)

/-- The histories in which every update follows a round that produced a column, and some column is selected. -/
abbrev Good : Hyper.Clock → ℚ → Bool → Active → Prop := fun _ _ p a => p = true ∧ 0 < a.total

/-- The state of the hyper-heuristic after a round. -/
structure Credited (st : SolveState) (hy : Hyper) (g : Heur) (l : List Heur) : Prop where
  hyper : st.hyper = some hy
  reach : Hyper.Reach Good l hy
  current : hy.current = some g
  objective : hy.objective ≠ none
  stuck : st.noImprovement ≠ 1
  iteration : 1 ≤ st.iteration
  count : ∀ h, (labelledWith st h).length = hy.added h + if st.more = true ∧ h = g then 1 else 0

theorem labelledWith_step {st st' : SolveState} {gr : List Column} {g : Heur}
    (hnd : (st'.cols.map Column.name).Nodup) (hknown : ∀ n, dget st.labels n ≠ none → n ∈ st.cols.map Column.name)
    (h : (st'.labels = st.labels ∧ st'.cols = st.cols ++ gr ∧ st'.more = false) ∨
       ∃ c, st'.more = true ∧ st'.labels = dset st.labels c.name g ∧ st'.cols = st.cols ++ gr ++ [c]) (x : Heur) :
    (labelledWith st' x).length = (labelledWith st x).length + if st'.more = true ∧ x = g then 1 else 0 := by
  unfold labelledWith
  rcases h with ⟨h1, h2, h3⟩ | ⟨c, h1, h2, h3⟩
  · rw [h2, List.map_append] at hnd
    have hno : ∀ y ∈ gr, dget st.labels y.name = none := by
      intro y hc
      by_contra hn
      exact (List.nodup_append.1 hnd).2.2 _ (hknown _ hn) _ (List.mem_map_of_mem hc) rfl
    have : gr.filter (fun c => decide (dget st.labels c.name = some x)) = [] := by
      rw [List.filter_eq_nil_iff]
      intro y hy
      simp [hno y hy]
    rw [h1, h2, List.filter_append, this, h3]
    simp
  · rw [h3, List.map_append, List.map_append] at hnd
    obtain ⟨n1, _, n3⟩ := List.nodup_append.1 hnd
    have hne : ∀ y ∈ st.cols ++ gr, y.name ≠ c.name := fun y hx =>
      n3 _ (by rw [← List.map_append]; exact List.mem_map_of_mem hx) _ (by simp)
    have hno : ∀ y ∈ gr, dget st.labels y.name = none := by
      intro y hc
      by_contra hn
      exact (List.nodup_append.1 n1).2.2 _ (hknown _ hn) _ (List.mem_map_of_mem hc) rfl
    have e : (st.cols ++ gr).filter (fun c' => decide (dget (dset st.labels c.name g) c'.name = some x)) =
        st.cols.filter (fun c' => decide (dget st.labels c'.name = some x)) := by
      have : gr.filter (fun c => decide (dget st.labels c.name = some x)) = [] := by
        rw [List.filter_eq_nil_iff]
        intro y hy
        simp [hno y hy]
      rw [← List.append_nil (st.cols.filter _), ← this, ← List.filter_append]
      refine List.filter_congr ?_
      intro y hy
      rw [dget_dset, if_neg (hne y hy)]
    rw [h2, h3, List.filter_append, e, h1]
    simp only [List.filter_cons, List.filter_nil, dget_dset, if_true, Option.some.injEq, List.length_append, true_and]
    by_cases hx : g = x
    · subst hx; simp
    · simp [hx, Ne.symm hx]

/-- One round with the hyper-heuristic. -/
theorem credit_step {st st' : SolveState} {hy : Hyper} {l : List Heur} (hinv : Inv st) (hK : cfg.K ≠ 0)
    (hknown : ∀ n, dget st.labels n ≠ none → n ∈ st.cols.map Column.name) (hp : cfg.pricing = .hyper)
    (hr : cfg.runExact = 1) (hno : st.noImprovement ≠ 1)
    (hc : (st.hyper = some hy ∧ Hyper.Reach Good l hy ∧ st.iteration = 0 ∧ ∀ h, (labelledWith st h).length = hy.added h) ∨
      ∃ g, Credited st hy g l) (hm : st.more = true) (h : findColumns cfg env false st = .ok st') :
    ∃ hy g l, Credited st' hy g l := by
  obtain ⟨d, cost, st1, hh, st2, st3, h1, h2, h3, h4⟩ := findColumns_inv h
  obtain ⟨a1, a2, a3, a4, a5, a6, a7, a8⟩ := solveMaster_step h1
  obtain ⟨b1, b2, b3, b4, b5, b6, b7, b8, _⟩ := nextStrategy_step h2
  obtain ⟨c1, c2, c3, c4, c5, c6, c7, c8, c9, c10⟩ := count_step h4
  have a0 : st1.hyper = st.hyper := by
    simp only [solveMaster, Bool.false_eq_true, if_false] at h1
    unfold solveRelaxed at h1
    simp only at h1
    split at h1
    · simp only [Except.ok.injEq, Prod.mk.injEq] at h1
      obtain ⟨_, _, rfl⟩ := h1
      rfl
    · cases h1
  have c0 : st'.hyper = st3.hyper := by
    unfold count at h4
    simp only at h4
    split at h4
    · split at h4
      · cases h4
      · simp only [Except.ok.injEq] at h4
        subst h4
        rfl
    · simp only [Except.ok.injEq] at h4
      subst h4
      rfl
  have hinv2 : Inv st2 := ⟨by rw [b1, a1]; exact hinv.1, by rw [b2, a2, b1, a1]; exact hinv.2⟩
  obtain ⟨hinv3, _, hkept, _⟩ := vehicleLoop_step (Q := fun _ => True)
    ⟨fun _ _ _ _ _ _ _ _ _ _ _ => Or.inr trivial, fun _ _ _ _ _ _ _ => Or.inr trivial⟩
    (Or.inr fun _ => trivial) (fun k hk => List.mem_range.1 hk) hinv2 h3
  obtain ⟨hck, gr, g1, g2⟩ := vehicleLoop_labels (fun k hk => List.mem_range.1 hk) hinv2 h3
  have hcount : ∀ x, (labelledWith st' x).length = (labelledWith st x).length + if st'.more = true ∧ x = hh then 1 else 0 := by
    intro x
    refine labelledWith_step (gr := gr) (by rw [c1]; exact hinv3.1.nodup) hknown ?_ x
    rw [c5, c1, c4, show st.labels = st2.labels from (b6.trans a7).symm, show st.cols = st2.cols from (b1.trans a1).symm]
    rcases g2 with ⟨g2, g3, g4⟩ | ⟨c, g2, g3, g4, _⟩
    · exact Or.inl ⟨g2, g3, g4 (by simp [hK])⟩
    · exact Or.inr ⟨c, g2, g3, g4⟩
  -- the strategy
  have hnext : nextHyper env st1 cost = .ok (hh, st2) := by
    unfold nextStrategy at h2
    rw [hp] at h2
    simp only [hr, a4] at h2
    rwa [if_pos hno] at h2
  have key : ∃ hy2 l2, st2.hyper = some hy2 ∧ Hyper.Reach Good l2 hy2 ∧ hy2.current = some hh ∧ hy2.objective ≠ none ∧
      (∀ x, hy2.added x = (labelledWith st x).length) ∧ st2.noImprovement = st1.iteration := by
    unfold nextHyper at hnext
    rw [a0] at hnext
    rcases hc with ⟨e1, e2, e3, e4⟩ | ⟨g, e⟩
    · rw [e1] at hnext
      simp only [a3, e3, if_true, Except.ok.injEq, Prod.mk.injEq] at hnext
      obtain ⟨rfl, rfl⟩ := hnext
      exact ⟨_, l, rfl, .init cost e2, rfl, by simp [Hyper.init], fun x => (e4 x).symm, by rw [a3, e3]⟩
    · rw [e.hyper] at hnext
      have hi := e.iteration
      simp only [a3, show st.iteration ≠ 0 by omega, if_false] at hnext
      cases hu : hy.update (env.clock st1.tick) cost st1.more (distribution st1) with
      | error err => simp only [hu] at hnext; cases hnext
      | ok hy' =>
        simp only [hu, Except.ok.injEq, Prod.mk.injEq] at hnext
        obtain ⟨rfl, rfl⟩ := hnext
        obtain ⟨g', t, hg', hP, hz, rfl⟩ := Hyper.update_ok hu
        have hgg : g' = g := by rw [e.current] at hg'; exact (Option.some.inj hg').symm
        subst hgg
        have hpos : 0 < (distribution st1).total := by
          have := (hz g' (by rw [hP.iterations]; simp)).1
          rw [hP.active] at this
          omega
        have hmore : st1.more = true := a6.trans hm
        refine ⟨_, l ++ [g'], rfl, .pick _ (.update e.reach e.current ⟨hmore, hpos⟩ hu), rfl, ?_, ?_, by simp [a3]⟩
        · simp [Hyper.pick, hP.objective]
        · intro x
          simp only [Hyper.pick]
          rw [hP.added, e.count x, hmore, hm]
          by_cases hx : x = g' <;> simp [hx]
  obtain ⟨hy2, l2, k1, k2, k3, k4, k5, k6⟩ := key
  rw [k1] at hck
  obtain ⟨hy3, hy3e, hre⟩ : ∃ hy3, st3.hyper = some hy3 ∧ (hy3 = hy2 ∨ hy3 = { hy2 with timed := true }) := by
    rcases hck with h | h
    · exact ⟨_, h, Or.inl rfl⟩
    · exact ⟨_, h, Or.inr rfl⟩
  have hfields : Hyper.Reach Good l2 hy3 ∧ hy3.current = hy2.current ∧ hy3.objective = hy2.objective ∧ hy3.added = hy2.added := by
    rcases hre with rfl | rfl
    · exact ⟨k2, rfl, rfl, rfl⟩
    · exact ⟨.touch k2, rfl, rfl, rfl⟩
  obtain ⟨r1, r2, r3, r4⟩ := hfields
  refine ⟨hy3, hh, l2, ⟨c0.trans hy3e, r1, r2.trans k3, by rw [r3]; exact k4, ?_, by omega, ?_⟩⟩
  · rcases Nat.eq_zero_or_pos st.iteration with h0 | h0
    · have hi : st3.iteration = 0 := by rw [hkept.iteration, b3, a3, h0]
      unfold count at h4
      simp only [hi, Nat.lt_irrefl, gt_iff_lt, Nat.zero_add, if_false, Except.ok.injEq] at h4
      rw [← h4]
      simp
    · rcases c10 with c10 | ⟨c10, _⟩
      · omega
      · rw [c10, hkept.noImprovement, k6, a3]
        omega
  · intro x
    rw [hcount x, r4, k5 x]

/-- A first call with the hyper-heuristic: nothing has happened yet. -/
structure _root_.Vrpy.Spec.FirstHyper (cfg : SolveCfg) (st : SolveState) : Prop where
  pricing : cfg.pricing = .hyper
  types : cfg.K ≠ 0
  inv : Numbered st.cols ∧ st.mcols = st.cols
  labels : st.labels = []
  hyper : st.hyper = some {}
  iteration : st.iteration = 0
  noImprovement : st.noImprovement = 0

theorem credited_trace {st stm : SolveState} {n : Nat} (hf : FirstHyper cfg st) (hr : cfg.runExact = 1)
    (ht : Trace cfg env false st n stm) :
    (n = 0 ∧ stm = st) ∨ ∃ hy g l, Credited stm hy g l := by
  induction ht with
  | zero => exact Or.inl ⟨rfl, rfl⟩
  | snoc ht hm _ h ih =>
    right
    obtain ⟨hinv, hlab⟩ := labelled_trace hf.inv (labelled_start hf.labels) ht
    rcases ih with ⟨_, rfl⟩ | ⟨hy, g, l, hc⟩
    · refine credit_step (l := []) hinv hf.types hlab.known hf.pricing hr (by rw [hf.noImprovement]; omega)
        (Or.inl ⟨hf.hyper, .start, hf.iteration, ?_⟩) hm h
      intro x
      unfold labelledWith
      rw [hf.labels]
      simp [dget]
    · exact credit_step hinv hf.types hlab.known hf.pricing hr hc.stuck (Or.inr ⟨g, hc⟩) hm h

/-- **C74 (partial), credit.** In a first call of `solve()` with the hyper-heuristic and `run_exact=1` (the default), after
every round `added_columns` counts for each heuristic the columns found by its pricing problems, but for the column just found, which
is credited to the heuristic of that round in the next one.  What is missing: other values of `run_exact` (`C74_credit_counterexample`), second calls
(`C43_second_call_counterexample`). -/
theorem C74_credit_partial {st stm : SolveState} {n : Nat} (hf : FirstHyper cfg st) (hr : cfg.runExact = 1)
    (ht : Trace cfg env false st (n + 1) stm) :
    ∃ hy g, stm.hyper = some hy ∧ hy.current = some g ∧
      ∀ h, (labelledWith stm h).length = hy.added h + if stm.more = true ∧ h = g then 1 else 0 := by
  rcases credited_trace hf hr ht with ⟨h, _⟩ | ⟨hy, g, l, hc⟩
  · omega
  · exact ⟨hy, g, hc.hyper, hc.current, hc.count⟩

/-- **C43 (partial)**, whole runs: in a first call of `solve()` with the hyper-heuristic and `run_exact=1`, the choice of the
heuristic never raises, in no round, as long as some column is selected in the master problem. -/
theorem C43_run_partial {st stm : SolveState} {n : Nat} (hf : FirstHyper cfg st) (hr : cfg.runExact = 1)
    (ht : Trace cfg env false st n stm) (hm : stm.more = true) {d : Duals} {cost : ℚ} {st1 : SolveState}
    (h1 : solveMaster cfg env false stm = .ok (d, cost, st1)) (hsel : ∃ c ∈ st1.cols, 0 < st1.point (.y c.name)) :
    ∃ r, nextStrategy cfg env st1 cost = .ok r := by
  obtain ⟨a1, a2, a3, a4, a5, a6, a7, a8⟩ := solveMaster_step h1
  have a0 : st1.hyper = stm.hyper := by
    simp only [solveMaster, Bool.false_eq_true, if_false] at h1
    unfold solveRelaxed at h1
    simp only at h1
    split at h1
    · simp only [Except.ok.injEq, Prod.mk.injEq] at h1
      obtain ⟨_, _, rfl⟩ := h1
      rfl
    · cases h1
  have hpos : 0 < (distribution st1).total := by
    rw [C74_distribution]
    obtain ⟨c, hc, hp⟩ := hsel
    exact List.length_pos_of_mem (List.mem_filter.2 ⟨hc, by simpa using hp⟩)
  unfold nextStrategy
  rw [hf.pricing]
  simp only [hr]
  split
  · unfold nextHyper
    rw [a0]
    rcases credited_trace hf hr ht with ⟨_, rfl⟩ | ⟨hy, g, l, hc⟩
    · rw [hf.hyper]
      simp only [a3, hf.iteration, if_true]
      exact ⟨_, rfl⟩
    · rw [hc.hyper]
      simp only
      split
      · exact ⟨_, rfl⟩
      · obtain ⟨hy', hu⟩ := Hyper.C43_no_error_partial hc.reach hc.objective (env.clock st1.tick) cost (distribution st1) hpos
        rw [a6, hm, hu]
        exact ⟨_, rfl⟩
  · exact ⟨_, rfl⟩

/-- Without drop penalty every solution of the relaxed master problem selects a column. -/
theorem selected_exists {M : Master} {cols : List Column} {p : MVar → ℚ} (hper : M.periodic = false) (hdrop : M.dropPenalty = 0)
    {v : Node} (hv : v ∈ M.G.customers) (hf : (M.lp cols true).Feasible p) : ∃ c ∈ cols, 0 < p (.y c.name) := by
  have h := hf.constrs (M.visitConstr cols true v) (by
    simp only [Master.lp, List.append_assoc, List.mem_append, List.mem_map]
    exact Or.inl ⟨v, hv, rfl⟩)
  have hdum : M.dummies = [] := by simp [Master.dummies, hper]
  have hdr : M.drops = [] := by simp [Master.drops, hdrop]
  simp only [Master.visitConstr, Constr.Holds, eval_append, eval_map, if_true, hdum, hdr, List.not_mem_nil, if_false, eval_nil,
    hper, Bool.false_eq_true, add_zero] at h
  by_contra hno
  push Not at hno
  have hz : (cols.map (fun c => ((c.visited M.globalSpan).count v : ℚ) * p (.y c.name))).sum ≤ 0 := by
    refine (List.sum_le_card_nsmul _ 0 ?_).trans (by simp)
    intro x hx
    obtain ⟨c, hc, rfl⟩ := List.mem_map.1 hx
    exact mul_nonpos_of_nonneg_of_nonpos (by positivity) (hno c hc)
  linarith

/-- **C43 (partial)**, whole runs without drop penalty and periodic visits: in a first call of `solve()` with the hyper-heuristic and
`run_exact=1`, the choice of the heuristic never raises, in no round.  What is missing: drop penalties
(`Hyper.C43_no_active_counterexample`), second calls (`C43_second_call_counterexample`). -/
theorem C43_solve_partial {st stm : SolveState} {n : Nat} (hf : FirstHyper cfg st) (hr : cfg.runExact = 1)
    (hper : cfg.M.periodic = false) (hdrop : cfg.M.dropPenalty = 0) (hcust : cfg.M.G.customers ≠ [])
    (hsound : ∀ t, MasterSolverSound (env.master t))
    (ht : Trace cfg env false st n stm) (hm : stm.more = true) {d : Duals} {cost : ℚ} {st1 : SolveState}
    (h1 : solveMaster cfg env false stm = .ok (d, cost, st1)) : ∃ r, nextStrategy cfg env st1 cost = .ok r := by
  refine C43_run_partial hf hr ht hm h1 ?_
  obtain ⟨v, hv⟩ := List.exists_mem_of_ne_nil _ hcust
  obtain ⟨hinv, _⟩ := labelled_trace hf.inv (labelled_start hf.labels) ht
  simp only [solveMaster, Bool.false_eq_true, if_false] at h1
  unfold solveRelaxed at h1
  simp only at h1
  split at h1
  · rename_i hopt
    simp only [Except.ok.injEq, Prod.mk.injEq] at h1
    obtain ⟨_, _, rfl⟩ := h1
    obtain ⟨c, hc, hp⟩ := selected_exists hper hdrop hv (hsound _ _ hopt)
    exact ⟨c, by rw [← hinv.2]; exact hc, hp⟩
  · cases h1

end Solve

end Vrpy
