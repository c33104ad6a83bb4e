import Verif.Model.Solve
import Verif.Proofs.Py
import Mathlib.Data.List.Nodup
import Mathlib.Data.List.Infix

/-!
# Lemmas about column generation (`Verif/Model/Solve.lean`)
-/

namespace Vrpy

namespace Solve

/-- The number in the name of a column. -/
def _root_.Vrpy.ColName.index : ColName → Nat
  | .num n => n
  | .elem n => n
  | .nonElem n => n

/-- The columns are numbered 1, 2, 3, ... in order. -/
def Numbered (cols : List Column) : Prop := ∀ i c, cols[i]? = some c → c.name.index = i + 1

theorem Numbered.nodup {cols : List Column} (h : Numbered cols) : (cols.map Column.name).Nodup := by
  rw [List.nodup_iff_injective_get]
  intro i j hij
  have hi : i.1 < cols.length := by simpa using i.2
  have hj : j.1 < cols.length := by simpa using j.2
  have h1 := h i.1 cols[i.1] (List.getElem?_eq_getElem hi)
  have h2 := h j.1 cols[j.1] (List.getElem?_eq_getElem hj)
  simp only [List.get_eq_getElem, List.getElem_map] at hij
  rw [hij, h2] at h1
  exact Fin.ext (by omega)

theorem Numbered.snoc {cols : List Column} (h : Numbered cols) {c : Column} (hc : c.name.index = cols.length + 1) :
    Numbered (cols ++ [c]) := by
  intro i c' hi
  rcases lt_trichotomy i cols.length with hlt | heq | hgt
  · rw [List.getElem?_append_left hlt] at hi
    exact h i c' hi
  · subst heq
    rw [List.getElem?_append_right (le_refl _)] at hi
    simp only [Nat.sub_self, List.getElem?_cons_zero, Option.some.injEq] at hi
    rw [← hi, hc]
  · rw [List.getElem?_append_right (by omega), List.getElem?_eq_none (by simp; omega)] at hi
    cases hi

theorem Numbered.append {cols new : List Column} (h : Numbered (cols ++ new)) : Numbered cols := by
  intro i c hi
  refine h i c ?_
  have hlt : i < cols.length := by
    by_contra hn
    rw [List.getElem?_eq_none (by omega)] at hi
    cases hi
  rw [List.getElem?_append_left hlt, hi]

/-- LP pricing adds at most one column, numbered next. -/
theorem lp_step {q : PricingLP} {run timeUp : Bool} {keys : List Node} {solver : LP PVar → PricingLP.Answer}
    {cols cols' : List Column} {more : Bool} (h : q.solve run timeUp keys solver cols = .ok (cols', more)) :
    (more = false ∧ cols' = cols) ∨
      (more = true ∧ ∃ c, cols' = cols ++ [c] ∧ c.name.index = cols.length + 1 ∧ c.vehicleType = q.vehicleType) := by
  unfold PricingLP.solve at h
  split at h
  · simp only [Except.ok.injEq, Prod.mk.injEq] at h
    exact Or.inl ⟨h.2.symm, h.1.symm⟩
  · cases hf : q.formulate with
    | error e => simp [hf] at h
    | ok p =>
      simp only [hf] at h
      cases hz : (solver p).objective with
      | none =>
        simp only [hz, Except.ok.injEq, Prod.mk.injEq] at h
        exact Or.inl ⟨h.2.symm, h.1.symm⟩
      | some z =>
        simp only [hz] at h
        split at h
        · cases ha : q.addRoute keys cols (solver p).point with
          | error e => simp [ha] at h
          | ok cs =>
            simp only [ha, Except.ok.injEq, Prod.mk.injEq] at h
            obtain ⟨rfl, rfl⟩ := h
            unfold PricingLP.addRoute at ha
            cases hs : sumEdgeCosts q.G q.vehicleType (q.chosen (solver p).point) with
            | error e => simp [hs] at ha
            | ok t =>
              simp only [hs] at ha
              split at ha
              · cases ha
              · simp only [Except.ok.injEq] at ha
                exact Or.inr ⟨rfl, _, ha.symm, rfl, rfl⟩
        · simp only [Except.ok.injEq, Prod.mk.injEq] at h
          exact Or.inl ⟨h.2.symm, h.1.symm⟩

/-- Pricing with cspy adds at most one column, numbered next. -/
theorem cspy_step {q : Cspy} {run : Bool} {keys : List Node} {oracle : Cspy.Oracle}
    {cols cols' : List Column} {more : Bool} (h : q.solve run keys oracle cols = .ok (cols', more)) :
    (more = false ∧ cols' = cols) ∨
      (more = true ∧ ∃ c, cols' = cols ++ [c] ∧ c.name.index = cols.length + 1 ∧ c.vehicleType = q.vehicleType) := by
  unfold Cspy.solve at h
  split at h
  · simp only [Except.ok.injEq, Prod.mk.injEq] at h
    exact Or.inl ⟨h.2.symm, h.1.symm⟩
  · cases hf : q.formulate with
    | error e => simp [hf] at h
    | ok m =>
      simp only [hf] at h
      revert h
      generalize q.runs = es
      induction es with
      | nil =>
        intro h
        simp only [Cspy.attempts, Except.ok.injEq, Prod.mk.injEq] at h
        exact Or.inl ⟨h.2.symm, h.1.symm⟩
      | cons e es ih =>
        intro h
        simp only [Cspy.attempts] at h
        cases ho : oracle m e with
        | none =>
          simp only [ho, Except.ok.injEq, Prod.mk.injEq] at h
          exact Or.inl ⟨h.2.symm, h.1.symm⟩
        | some cp =>
          simp only [ho] at h
          split at h
          · cases hc : q.createRoute keys cols.length cp.2 with
            | error err => simp [hc] at h
            | ok col =>
              simp only [hc] at h
              split at h
              · exact ih h
              · simp only [Except.ok.injEq, Prod.mk.injEq] at h
                refine Or.inr ⟨h.2.symm, col, h.1.symm, ?_⟩
                unfold Cspy.createRoute at hc
                cases hs : sumEdgeCosts q.G q.vehicleType (graphEdges (consecutive cp.2)) with
                | error err => simp [hs] at hc
                | ok t =>
                  simp only [hs] at hc
                  split at hc
                  · cases hc
                  · simp only [Except.ok.injEq] at hc
                    subst hc
                    refine ⟨?_, rfl⟩
                    simp only
                    split <;> rfl
          · simp only [Except.ok.injEq, Prod.mk.injEq] at h
            exact Or.inl ⟨h.2.symm, h.1.symm⟩

/-- Greedy pricing appends columns, numbered next, and says so. -/
theorem greedy_step {g : GreedyPricing} {keys : List Node} {rand : Nat → Nat → Nat} {fuel nRuns : Nat}
    {cols cols' : List Column} {more : Bool} (hn : Numbered cols)
    (h : g.solve keys rand fuel nRuns cols = .ok (cols', more)) :
    Numbered cols' ∧ ∃ new, cols' = cols ++ new ∧ (more = false → new = []) := by
  unfold GreedyPricing.solve at h
  refine foldlM_inv (P := fun st : List Column × Bool => Numbered st.1 ∧ ∃ new, st.1 = cols ++ new ∧ (st.2 = false → new = []))
    _ _ _ ⟨hn, [], by simp, fun _ => rfl⟩ ?_ h
  rintro st job st' _ ⟨h1, new, h2, h3⟩ hstep
  unfold GreedyPricing.attempt at hstep
  cases hr : g.run job.1 job.2 fuel with
  | none =>
    simp only [hr, Except.ok.injEq] at hstep
    subst hstep
    exact ⟨h1, new, h2, h3⟩
  | some s =>
    simp only [hr] at hstep
    split at hstep
    · cases ha : g.addRoute keys st.1 s.path with
      | error e => simp [ha] at hstep
      | ok cs =>
        simp only [ha, Except.ok.injEq] at hstep
        subst hstep
        unfold GreedyPricing.addRoute at ha
        simp only at ha
        cases hs : sumEdgeCosts g.G g.vehicleType (graphEdges (consecutive s.path)) with
        | error e => simp [hs] at ha
        | ok t =>
          simp only [hs] at ha
          split at ha
          · cases ha
          · simp only [Except.ok.injEq] at ha
            subst ha
            refine ⟨h1.snoc rfl, new ++ [_], by simp only; rw [h2, List.append_assoc], fun h => by cases h⟩
    · simp only [Except.ok.injEq] at hstep
      subst hstep
      exact ⟨h1, new, h2, h3⟩

/-- One pricing problem adds at most one column, numbered next. -/
theorem price_step {cfg : SolveCfg} {env : Env} {t : Nat} {d : Duals} {k : Nat} {route : Option ColName}
    {cols cols' : List Column} {s : Strategy} {more : Bool} (h : price cfg env t d k route cols s = .ok (cols', more)) :
    (more = false ∧ cols' = cols) ∨
      (more = true ∧ ∃ c, cols' = cols ++ [c] ∧ c.name.index = cols.length + 1 ∧ c.vehicleType = k) := by
  unfold price at h
  cases hs : subProblem cfg.M.G d k route (env.paths t) s with
  | error e => simp [hs] at h
  | ok p =>
    simp only [hs] at h
    split at h
    · exact cspy_step h
    · exact lp_step h

/-- A series of pricing problems: nothing found by any of them, or one column. -/
theorem priceAll_step {cfg : SolveCfg} {env : Env} {d : Duals} {k : Nat} {js : List (Option ColName × Strategy)} {t t' : Nat}
    {cols cols' : List Column} {more : Bool} (h : priceAll cfg env d k js t cols = .ok (cols', more, t')) :
    (more = false ∧ cols' = cols ∧ ∀ j ∈ js, ∃ t, price cfg env t d k j.1 cols j.2 = .ok (cols, false)) ∨
      (more = true ∧ ∃ j ∈ js, ∃ t, price cfg env t d k j.1 cols j.2 = .ok (cols', true)) := by
  induction js generalizing t with
  | nil =>
    simp only [priceAll, Except.ok.injEq, Prod.mk.injEq] at h
    exact Or.inl ⟨h.2.1.symm, h.1.symm, by simp⟩
  | cons j js ih =>
    simp only [priceAll] at h
    cases hp : price cfg env t d k j.1 cols j.2 with
    | error e => simp [hp] at h
    | ok r =>
      obtain ⟨cols1, b⟩ := r
      cases b with
      | true =>
        simp only [hp, Except.ok.injEq, Prod.mk.injEq] at h
        obtain ⟨rfl, rfl, _⟩ := h
        exact Or.inr ⟨rfl, j, List.mem_cons_self, t, hp⟩
      | false =>
        simp only [hp] at h
        rcases price_step hp with ⟨_, rfl⟩ | ⟨hf, _⟩
        · rcases ih h with ⟨h1, h2, h3⟩ | ⟨h1, j', hj', t', h2⟩
          · refine Or.inl ⟨h1, h2, ?_⟩
            intro j' hj'
            rcases List.mem_cons.1 hj' with rfl | hj'
            · exact ⟨t, hp⟩
            · exact h3 j' hj'
          · exact Or.inr ⟨h1, j', List.mem_cons_of_mem _ hj', t', h2⟩
        · cases hf

theorem addToMaster_ok {cfg : SolveCfg} {st st' : SolveState} {c : Column} (h : addToMaster cfg st c = .ok st') :
    cfg.M.addColumn c = .ok () ∧ st' = { st with mcols := st.mcols ++ [c] } := by
  unfold addToMaster at h
  cases ha : cfg.M.addColumn c with
  | error e => simp [ha] at h
  | ok u =>
    simp only [ha, Except.ok.injEq] at h
    exact ⟨rfl, h.symm⟩

/-- `addMissing` adds exactly the new columns. -/
theorem addMissing_ok {cfg : SolveCfg} {st st' : SolveState} {new : List Column} (hn : Numbered st.cols)
    (hc : st.cols = st.mcols ++ new) (h : addMissing cfg st = .ok st') : st' = { st with mcols := st.cols } := by
  have hnd := hn.nodup
  unfold addMissing at h
  have key := foldlM_prefix (P := fun pre s => ∃ m, s = { st with mcols := m } ∧ st.mcols <+: m ∧
      (pre <+: st.mcols ∧ m = st.mcols ∨ st.mcols <+: pre ∧ m = pre)) st.cols st st'
    ⟨st.mcols, rfl, List.prefix_rfl, Or.inl ⟨List.nil_prefix, rfl⟩⟩ ?_ h
  · obtain ⟨m, rfl, _, h1 | h1⟩ := key
    · obtain ⟨h1, h2⟩ := h1
      have : st.cols = st.mcols := by
        have hlen : st.cols.length ≤ st.mcols.length := h1.length_le
        rw [hc, List.length_append] at hlen
        have : new = [] := List.length_eq_zero_iff.1 (by omega)
        rw [hc, this, List.append_nil]
      rw [h2, this]
    · rw [h1.2]
  · rintro pre a c c' hpre ⟨m, rfl, h1, h2⟩ hstep
    simp only at hstep
    have hle : pre.length < st.cols.length := by
      have := hpre.length_le
      simp only [List.length_append, List.length_cons, List.length_nil] at this
      omega
    rcases Nat.lt_or_ge pre.length st.mcols.length with hlt | hge
    · -- still within the old columns
      rcases h2 with ⟨h2, h3⟩ | ⟨h2, h3⟩
      · have hpm : pre ++ [a] <+: st.mcols := by
          refine List.prefix_of_prefix_length_le hpre (by rw [hc]; exact List.prefix_append _ _) ?_
          simp only [List.length_append, List.length_cons, List.length_nil]
          omega
        have ha : a ∈ st.mcols := hpm.subset (by simp)
        rw [h3, if_pos (List.mem_map.2 ⟨a, ha, rfl⟩)] at hstep
        simp only [Except.ok.injEq] at hstep
        subst hstep
        exact ⟨st.mcols, rfl, List.prefix_rfl, Or.inl ⟨hpm, rfl⟩⟩
      · have := h2.length_le
        omega
    · have hm : m = pre := by
        rcases h2 with ⟨h2, h3⟩ | ⟨_, h3⟩
        · rw [h3]
          exact (h2.eq_of_length (by have := h2.length_le; omega)).symm
        · exact h3
      subst hm
      have hna : a.name ∉ m.map Column.name := by
        have hsub : (m ++ [a]).map Column.name <+: st.cols.map Column.name := hpre.map _
        have hnd' := hnd.sublist hsub.sublist
        rw [List.map_append, List.nodup_append] at hnd'
        intro hmem
        exact hnd'.2.2 _ hmem a.name (by simp) rfl
      rw [if_neg hna] at hstep
      obtain ⟨_, rfl⟩ := addToMaster_ok hstep
      exact ⟨m ++ [a], rfl, h1.trans (List.prefix_append _ _), Or.inr ⟨h1.trans (List.prefix_append _ _), rfl⟩⟩

/-- The invariant of column generation: the columns are numbered and the master problem has the same columns. -/
def Inv (st : SolveState) : Prop := Numbered st.cols ∧ st.mcols = st.cols

/-- With `pricing_strategy="Exact"` only exact pricing problems are solved. -/
theorem jobs_exact {cfg : SolveCfg} {h : Heur} {cols : List Column} {j : Option ColName × Strategy}
    (he : cfg.pricing = .fixed .exact) (hh : h = .exact) (hj : j ∈ jobs cfg h cols) : j.2 = .exact := by
  subst hh
  unfold jobs at hj
  rw [he] at hj
  simp only [strategies, if_true, List.map_cons, List.map_nil] at hj
  split at hj
  · obtain ⟨c, _, hc⟩ := List.mem_flatMap.1 hj
    rw [List.mem_singleton.1 hc]
  · rw [List.mem_singleton.1 hj]

theorem nextStrategy_exact {cfg : SolveCfg} {env : Env} {st st' : SolveState} {cost : ℚ} {h : Heur}
    (hn : nextStrategy cfg env st cost = .ok (h, st')) (he : cfg.pricing = .fixed .exact) : h = .exact := by
  unfold nextStrategy at hn
  rw [he] at hn
  simp only [ite_self, Except.ok.injEq, Prod.mk.injEq] at hn
  exact hn.1.symm

/-- The columns that pricing finds satisfy `Q`. -/
def PriceOk (cfg : SolveCfg) (env : Env) (d : Duals) (Q : Column → Prop) : Prop :=
  (∀ k < cfg.K, ∀ t route cols s cols', (cfg.pricing = .fixed .exact → s = .exact) → price cfg env t d k route cols s = .ok (cols', true) →
    ∀ c ∈ cols', c ∈ cols ∨ Q c) ∧
  (∀ k < cfg.K, ∀ st st' : SolveState, greedyPhase cfg env d k st = .ok st' → ∀ c ∈ st'.cols, c ∈ st.cols ∨ Q c)

/-- Without greedy pricing the first phase does nothing; with it, it appends columns. -/
theorem greedyPhase_step {cfg : SolveCfg} {env : Env} {d : Duals} {k : Nat} {st st' : SolveState} (hinv : Inv st)
    (h : greedyPhase cfg env d k st = .ok st') :
    Inv st' ∧ (∃ new, st'.cols = st.cols ++ new) ∧ st'.more = st.more ∧ st'.iteration = st.iteration ∧
      st'.noImprovement = st.noImprovement ∧ st'.bounds = st.bounds ∧ st'.hyper = st.hyper ∧ st'.point = st.point ∧
      st'.labels = st.labels ∧ st'.solved = st.solved ∧ st'.fixed = st.fixed ∧ st'.dive = st.dive := by
  unfold greedyPhase at h
  split at h
  · simp only [bind, Except.bind] at h
    split at h
    · cases h
    split at h
    · cases h
    split at h
    · cases h
    · rename_i r hr
      obtain ⟨hn, new, h2, h3⟩ := greedy_step hinv.1 hr
      split at h
      · have hc : ({ st with cols := r.1, tick := st.tick + 1 } : SolveState).cols =
            ({ st with cols := r.1, tick := st.tick + 1 } : SolveState).mcols ++ new := by
          simp only
          rw [h2, hinv.2]
        have := addMissing_ok (st := { st with cols := r.1, tick := st.tick + 1 }) hn hc h
        subst this
        exact ⟨⟨hn, rfl⟩, ⟨new, h2⟩, rfl, rfl, rfl, rfl, rfl, rfl, rfl, rfl, rfl, rfl⟩
      · rename_i hb
        simp only [pure, Except.pure, Except.ok.injEq] at h
        subst h
        have hnew := h3 (by simpa using hb)
        subst hnew
        refine ⟨⟨hn, ?_⟩, ⟨[], h2⟩, rfl, rfl, rfl, rfl, rfl, rfl, rfl, rfl, rfl, rfl⟩
        simp only
        rw [hinv.2, h2, List.append_nil]
  · simp only [Except.ok.injEq] at h
    subst h
    exact ⟨hinv, ⟨[], by simp⟩, rfl, rfl, rfl, rfl, rfl, rfl, rfl, rfl, rfl, rfl⟩

/-- What a loop over vehicle types changes. -/
structure Kept (st st' : SolveState) : Prop where
  iteration : st'.iteration = st.iteration
  noImprovement : st'.noImprovement = st.noImprovement
  bounds : st'.bounds = st.bounds
  point : st'.point = st.point
  solved : st'.solved = st.solved
  fixed : st'.fixed = st.fixed
  dive : st'.dive = st.dive

theorem Kept.trans {a b c : SolveState} (h1 : Kept a b) (h2 : Kept b c) : Kept a c :=
  ⟨h2.1.trans h1.1, h2.2.trans h1.2, h2.3.trans h1.3, h2.4.trans h1.4, h2.5.trans h1.5, h2.6.trans h1.6, h2.7.trans h1.7⟩

/-- The pricing problems of vehicle type `k` found nothing, with a pool between `lo` and `hi`. -/
def Failed (cfg : SolveCfg) (env : Env) (d : Duals) (h : Heur) (k : Nat) (lo hi : List Column) : Prop :=
  ∃ cols, lo <+: cols ∧ cols <+: hi ∧
    ∀ j ∈ jobs cfg h cols, ∃ t, price cfg env t d k j.1 cols j.2 = .ok (cols, false)

theorem vehicleLoop_step {cfg : SolveCfg} {env : Env} {d : Duals} {h : Heur} {Q : Column → Prop}
    (hQ : PriceOk cfg env d Q) (hh : (cfg.pricing = .fixed .exact → h = .exact) ∨ ∀ c, Q c) {ks : List Nat} (hks : ∀ k ∈ ks, k < cfg.K) {st st' : SolveState} (hinv : Inv st)
    (hl : vehicleLoop cfg env d h ks st = .ok st') :
    Inv st' ∧ (∃ new, st'.cols = st.cols ++ new ∧ ∀ c ∈ new, Q c ∨ c ∈ st.cols) ∧ Kept st st' ∧
      (st'.more = false → ∀ k ∈ ks, Failed cfg env d h k st.cols st'.cols) ∧
      (st'.more = true → ks ≠ [] → st.cols.length < st'.cols.length ∧ ∃ k ∈ ks, ∃ t j cols c, j ∈ jobs cfg h cols ∧
        st.cols <+: cols ∧ st'.cols = cols ++ [c] ∧ price cfg env t d k j.1 cols j.2 = .ok (cols ++ [c], true)) := by
  induction ks generalizing st with
  | nil =>
    simp only [vehicleLoop, Except.ok.injEq] at hl
    subst hl
    exact ⟨hinv, ⟨[], by simp, by simp⟩, ⟨rfl, rfl, rfl, rfl, rfl, rfl, rfl⟩, by simp, by simp⟩
  | cons k ks ih =>
    have hk := hks k List.mem_cons_self
    simp only [vehicleLoop] at hl
    cases hg : greedyPhase cfg env d k st with
    | error e => simp [hg] at hl
    | ok st1 =>
      simp only [hg] at hl
      obtain ⟨hinv1, ⟨new1, hnew1⟩, _, g2, g3, g4, _, g6, _, g8, g9, g10⟩ := greedyPhase_step hinv hg
      have hQ1 := hQ.2 k hk st st1 hg
      cases hp : priceAll cfg env d k (jobs cfg h st1.cols) st1.tick st1.cols with
      | error e => simp [hp] at hl
      | ok r =>
        obtain ⟨cols2, b, t2⟩ := r
        simp only [hp] at hl
        cases b with
        | true =>
          rcases priceAll_step hp with ⟨hf, _⟩ | ⟨_, j, hj, t, hpr⟩
          · cases hf
          · rcases price_step hpr with ⟨hf, _⟩ | ⟨_, c, hc, hidx, _⟩
            · cases hf
            · subst hc
              simp only [register, List.getLast?_append, List.getLast?_singleton, Option.or_some] at hl
              obtain ⟨_, rfl⟩ := addToMaster_ok hl
              refine ⟨⟨hinv1.1.snoc hidx, ?_⟩, ⟨new1 ++ [c], ?_, ?_⟩, ⟨g2, g3, g4, g6, g8, g9, g10⟩, fun hf => (by cases hf),
                fun _ _ => ⟨?_, k, List.mem_cons_self, t, j, st1.cols, c, hj, ?_, rfl, hpr⟩⟩
              · simp only
                rw [hinv1.2]
              · simp only
                rw [hnew1, List.append_assoc]
              · intro c' hc'
                rcases List.mem_append.1 hc' with hc' | hc'
                · rcases hQ1 c' (by rw [hnew1]; exact List.mem_append_right _ hc') with h1 | h1
                  · exact Or.inr h1
                  · exact Or.inl h1
                · simp only [List.mem_singleton] at hc'
                  subst hc'
                  have hnew : c' ∈ st1.cols ∨ Q c' := by
                    rcases hh with hh | hh
                    · exact hQ.1 k hk _ _ _ _ _ (fun he => jobs_exact he (hh he) hj) hpr c' (by simp)
                    · exact Or.inr (hh c')
                  rcases hnew with h1 | h1
                  · rcases hQ1 c' h1 with h2 | h2
                    · exact Or.inr h2
                    · exact Or.inl h2
                  · exact Or.inl h1
              · simp only [List.length_append, List.length_cons, List.length_nil, hnew1]
                omega
              · exact ⟨new1, hnew1.symm⟩
        | false =>
          rcases priceAll_step hp with ⟨_, hc2, hfail⟩ | ⟨hf, _⟩
          · subst hc2
            have hinv2 : Inv { st1 with cols := st1.cols, more := false, tick := t2, hyper := stopClock cfg st1.hyper } := hinv1
            obtain ⟨i1, ⟨new2, i2, i3⟩, i4, i5, i6⟩ := ih (fun k hk => hks k (List.mem_cons_of_mem _ hk)) hinv2 hl
            simp only at i2 i3 i5 i6
            have hlo : st.cols <+: st1.cols := ⟨new1, hnew1.symm⟩
            refine ⟨i1, ⟨new1 ++ new2, by rw [i2, hnew1, List.append_assoc], ?_⟩, ?_, ?_, ?_⟩
            · intro c' hc'
              rcases List.mem_append.1 hc' with hc' | hc'
              · rcases hQ1 c' (by rw [hnew1]; exact List.mem_append_right _ hc') with h1 | h1
                · exact Or.inr h1
                · exact Or.inl h1
              · rcases i3 c' hc' with h1 | h1
                · exact Or.inl h1
                · rcases hQ1 c' h1 with h2 | h2
                  · exact Or.inr h2
                  · exact Or.inl h2
            · exact Kept.trans ⟨g2, g3, g4, g6, g8, g9, g10⟩ ⟨i4.1, i4.2, i4.3, i4.4, i4.5, i4.6, i4.7⟩
            · intro hm k' hk'
              rcases List.mem_cons.1 hk' with rfl | hk'
              · exact ⟨st1.cols, hlo, ⟨new2, i2.symm⟩, hfail⟩
              · obtain ⟨cols, h1, h2, h3⟩ := i5 hm k' hk'
                exact ⟨cols, hlo.trans h1, h2, h3⟩
            · intro hm _
              by_cases hks' : ks = []
              · subst hks'
                simp only [vehicleLoop, Except.ok.injEq] at hl
                subst hl
                cases hm
              · obtain ⟨h1, k', hk', t, j, cols, c, h2, h3, h4, h5⟩ := i6 hm hks'
                refine ⟨lt_of_le_of_lt hlo.length_le h1, k', List.mem_cons_of_mem _ hk', t, j, cols, c, h2, hlo.trans h3, h4, h5⟩
          · cases hf

theorem solveMaster_step {cfg : SolveCfg} {env : Env} {dive : Bool} {st st' : SolveState} {d : Duals} {cost : ℚ}
    (h : solveMaster cfg env dive st = .ok (d, cost, st')) :
    st'.cols = st.cols ∧ st'.mcols = st.mcols ∧ st'.iteration = st.iteration ∧ st'.noImprovement = st.noImprovement ∧
      st'.bounds = st.bounds ∧ st'.more = st.more ∧ st'.labels = st.labels ∧ st'.solved = st.mcols.map Column.name := by
  unfold solveMaster at h
  split at h
  · unfold solveDive at h
    simp only at h
    split at h
    · cases h
    · simp only [Except.ok.injEq, Prod.mk.injEq] at h
      obtain ⟨_, _, rfl⟩ := h
      exact ⟨rfl, rfl, rfl, rfl, rfl, rfl, rfl, rfl⟩
  · unfold solveRelaxed at h
    simp only at h
    split at h
    · simp only [Except.ok.injEq, Prod.mk.injEq] at h
      obtain ⟨_, _, rfl⟩ := h
      exact ⟨rfl, rfl, rfl, rfl, rfl, rfl, rfl, rfl⟩
    · cases h

theorem nextStrategy_step {cfg : SolveCfg} {env : Env} {st st' : SolveState} {cost : ℚ} {h : Heur}
    (hn : nextStrategy cfg env st cost = .ok (h, st')) :
    st'.cols = st.cols ∧ st'.mcols = st.mcols ∧ st'.iteration = st.iteration ∧ st'.bounds = st.bounds ∧
      st'.more = st.more ∧ st'.labels = st.labels ∧ st'.solved = st.solved ∧ st'.point = st.point ∧
      (st'.noImprovement = st.noImprovement ∨ st'.noImprovement = st.iteration ∧ cfg.pricing = .hyper) := by
  unfold nextStrategy at hn
  split at hn
  · rename_i hp
    split at hn
    · unfold nextHyper at hn
      split at hn
      · cases hn
      · split at hn
        · rename_i hi
          simp only [Except.ok.injEq, Prod.mk.injEq] at hn
          obtain ⟨_, rfl⟩ := hn
          exact ⟨rfl, rfl, rfl, rfl, rfl, rfl, rfl, rfl, Or.inr ⟨hi.symm, hp⟩⟩
        · split at hn
          · cases hn
          · simp only [Except.ok.injEq, Prod.mk.injEq] at hn
            obtain ⟨_, rfl⟩ := hn
            exact ⟨rfl, rfl, rfl, rfl, rfl, rfl, rfl, rfl, Or.inr ⟨rfl, hp⟩⟩
    · simp only [Except.ok.injEq, Prod.mk.injEq] at hn
      obtain ⟨_, rfl⟩ := hn
      exact ⟨rfl, rfl, rfl, rfl, rfl, rfl, rfl, rfl, Or.inl rfl⟩
  · simp only [Except.ok.injEq, Prod.mk.injEq] at hn
    obtain ⟨_, rfl⟩ := hn
    exact ⟨rfl, rfl, rfl, rfl, rfl, rfl, rfl, rfl, Or.inl rfl⟩

theorem count_step {dive : Bool} {cost : ℚ} {st st' : SolveState} (h : count dive cost st = .ok st') :
    st'.cols = st.cols ∧ st'.mcols = st.mcols ∧ st'.iteration = st.iteration + 1 ∧ st'.more = st.more ∧
      st'.labels = st.labels ∧ st'.solved = st.solved ∧ st'.point = st.point ∧ st'.tick = st.tick ∧
      st'.bounds = (if dive then st.bounds else st.bounds ++ [cost]) ∧
      (st'.noImprovement = 0 ∨ st'.noImprovement = st.noImprovement + 1 ∧ st.bounds.getLast? = some cost) := by
  unfold count at h
  simp only at h
  split at h
  · split at h
    · cases h
    · rename_i b hb
      simp only [Except.ok.injEq] at h
      subst h
      refine ⟨rfl, rfl, rfl, rfl, rfl, rfl, rfl, rfl, rfl, ?_⟩
      by_cases hc : cost = b
      · right
        simp [hc, hb]
      · left
        simp [hc]
  · simp only [Except.ok.injEq] at h
    subst h
    exact ⟨rfl, rfl, rfl, rfl, rfl, rfl, rfl, rfl, rfl, Or.inl rfl⟩

/-- The parts of an iteration. -/
theorem findColumns_inv {cfg : SolveCfg} {env : Env} {dive : Bool} {st st' : SolveState}
    (h : findColumns cfg env dive st = .ok st') :
    ∃ d cost st1 hh st2 st3, solveMaster cfg env dive st = .ok (d, cost, st1) ∧
      nextStrategy cfg env st1 cost = .ok (hh, st2) ∧ vehicleLoop cfg env d hh (List.range cfg.K) st2 = .ok st3 ∧
      count dive cost st3 = .ok st' := by
  unfold findColumns at h
  simp only [bind, Except.bind] at h
  split at h
  · cases h
  · rename_i m hm
    split at h
    · cases h
    · rename_i p hp
      split at h
      · cases h
      · rename_i st3 h3
        exact ⟨m.1, m.2.1, m.2.2, p.1, p.2, st3, hm, hp, h3, h⟩

end Solve

end Vrpy
