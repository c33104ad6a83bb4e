import Verif.Model.Hyper
import Verif.Proofs.Py
import Mathlib.Tactic.Linarith
import Mathlib.Tactic.Positivity
import Mathlib.Tactic.FieldSimp
import Mathlib.Data.Finset.Max

/-!
# C42, C43: the hyper-heuristic
-/

namespace Vrpy

namespace Hyper

/-- Histories: `Reach Q l s` means that `s` can come about by calls of the methods in any order, where `l` lists the
heuristics credited by the updates, oldest first, and the arguments of all updates satisfy `Q`.  `touch` is
`self.hyper_heuristic.end_time = time()` (`vrpy/vrp.py:607`). -/
inductive Reach (Q : Clock → ℚ → Bool → Active → Prop) : List Heur → Hyper → Prop
  | start : Reach Q [] {}
  | init {l s} (c : ℚ) : Reach Q l s → Reach Q l (s.init c)
  | touch {l s} : Reach Q l s → Reach Q l { s with timed := true }
  | update {l s s' h c obj p a} : Reach Q l s → s.current = some h → Q c obj p a → s.update c obj p a = .ok s' →
      Reach Q (l ++ [h]) s'
  | pick {l s} (i : Nat) : Reach Q l s → Reach Q l (s.pick i).2

theorem mem_all (h : Heur) : h ∈ Heur.all := by cases h <;> decide

/-- The result of `performance`. -/
structure Performed (s s' : Hyper) (h : Heur) (c : Clock) (obj : ℚ) (p : Bool) (a : Active) : Prop where
  theta : s'.theta = s.theta
  current : s'.current = s.current
  objective : s'.objective = some obj
  outcome : ∀ old, s.objective = some old → s'.decreased = decide (obj < old) ∧ s'.produced = p
  timed : s'.timed = true
  iterations : ∀ x, s'.iterations x = s.iterations x + if x = h then 1 else 0
  added : ∀ x, s'.added x = s.added x + if x = h ∧ p = true then 1 else 0
  points : s'.points = s.points
  active : s'.active = a
  exp : ∀ x, s'.exp x = if s'.iterations x > 0 then c.root ((Heur.all.map s'.iterations).sum) (s'.iterations x) else s.exp x
  runtimes : s'.runtimes ≠ []
  normRuntime : ∀ x, s'.normRuntime x = if s'.iterations x > 0 then runtimeRank s'.runtimes (s'.lastRuntime x) else s.normRuntime x
  normObj : ∀ x, s'.normObj x = if s'.iterations x > 0 ∧ s'.totalDecrease > 0 then s'.objDecrease x / s'.totalDecrease else s.normObj x
  objDecrease : ∃ d : ℚ, 0 ≤ d ∧ s'.totalDecrease = s.totalDecrease + d ∧
    ∀ x, s'.objDecrease x = s.objDecrease x + if x = h then d else 0
  level : s.objective = some obj → s'.totalDecrease = s.totalDecrease ∧ s'.objDecrease = s.objDecrease

theorem performance_ok {s s' : Hyper} {c : Clock} {obj : ℚ} {p : Bool} {a : Active}
    (hs : s.performance c obj p a = .ok s') : ∃ h, s.current = some h ∧ Performed s s' h c obj p a := by
  unfold performance at hs
  split at hs
  · cases hs
  · rename_i ht
    have ht : s.timed = true := by simpa using ht
    cases hc : s.current with
    | none => rw [hc] at hs; cases hs
    | some h =>
      cases ho : s.objective with
      | none => rw [hc, ho] at hs; cases hs
      | some old =>
        rw [hc, ho] at hs
        simp only [Except.ok.injEq] at hs
        subst hs
        refine ⟨h, rfl, rfl, hc ▸ rfl, rfl, ?_, ht, ?_, ?_, rfl, rfl, fun _ => rfl, ?_, fun _ => rfl, fun _ => rfl,
          ⟨max (old - obj) 0, le_max_right _ _, rfl, ?_⟩, ?_⟩
        · intro old' ho'
          rw [ho] at ho'
          cases ho'
          exact ⟨by simp [sub_pos], rfl⟩
        · intro x; simp only [updateAt]; split
          · rename_i hx; rw [hx]
          · simp
        · intro x
          cases p
          · simp
          · simp only [if_true, updateAt, and_true]
            split
            · rename_i hx; rw [hx]
            · simp
        · exact List.ne_nil_of_length_pos (by simp only [List.orderedInsert_length]; omega)
        · intro x; simp only [updateAt]; split
          · rename_i hx; rw [hx]
          · simp
        · intro hl
          rw [ho] at hl
          cases hl
          refine ⟨by simp, funext fun x => ?_⟩
          simp only [updateAt]
          split
          · rename_i hx; rw [hx]; simp
          · rfl

theorem performance_total {s : Hyper} {h : Heur} {old : ℚ} (ht : s.timed = true) (hc : s.current = some h)
    (ho : s.objective = some old) (c : Clock) (obj : ℚ) (p : Bool) (a : Active) :
    ∃ s', s.performance c obj p a = .ok s' := by
  unfold performance
  rw [if_neg (by simp [ht]), hc, ho]
  exact ⟨_, rfl⟩

theorem update_ok {s s' : Hyper} {c : Clock} {obj : ℚ} {p : Bool} {a : Active} (hs : s.update c obj p a = .ok s') :
    ∃ h t, s.current = some h ∧ Performed s t h c obj p a ∧
      (∀ x, t.iterations x > 0 → t.active.total ≠ 0 ∧ t.added x ≠ 0) ∧
      s' = { t with theta := t.newTheta,
                    points := fun x => if t.iterations x > 0 then ({ t with theta := t.newTheta } : Hyper).score x
                      else t.points x } := by
  unfold update at hs
  cases hp : s.performance c obj p a with
  | error e => rw [hp] at hs; cases hs
  | ok t =>
    rw [hp] at hs
    obtain ⟨h, hc, hP⟩ := performance_ok hp
    refine ⟨h, t, hc, hP, ?_⟩
    unfold updateParameters at hs
    simp only at hs
    split at hs
    · cases hs
    · rename_i hz
      refine ⟨?_, ?_⟩
      · intro x hx
        by_contra hn
        apply hz
        refine ⟨x, mem_all x, hx, ?_⟩
        by_contra hn'
        push Not at hn'
        exact hn hn'
      · simp only [Except.ok.injEq] at hs
        exact hs.symm

/-- **C42, learning rate.**  Whatever happens, `theta` stays between the step and 1. -/
theorem C42_theta {Q} {l : List Heur} {s : Hyper} (h : Reach Q l s) : step ≤ s.theta ∧ s.theta ≤ 1 := by
  induction h with
  | start => exact ⟨by norm_num [step], le_refl _⟩
  | init c _ ih => exact ih
  | touch _ ih => exact ih
  | pick i _ ih => exact ih
  | update _ _ _ hu ih =>
    obtain ⟨h, t, _, hP, _, rfl⟩ := update_ok hu
    simp only [newTheta]
    split
    · norm_num [step]
    · refine ⟨le_max_right _ _, max_le ?_ (by norm_num [step])⟩
      have := hP.theta
      have hs : (0 : ℚ) ≤ step := by norm_num [step]
      linarith [ih.2]

/-- An update after which the factor goes up: a column was produced and the objective decreased strictly. -/
def Spec.Improves (old obj : ℚ) (produced : Bool) : Prop := produced = true ∧ obj < old

/-- `Stale k s`: the last `k` updates did not improve, the one before did; picks, clock and all other arguments are arbitrary. -/
inductive Stale : Nat → Hyper → Prop
  | improved {s s' : Hyper} {old c obj p a} : s.objective = some old → Spec.Improves old obj p → s.update c obj p a = .ok s' →
      Stale 0 s'
  | stale {k} {s s' : Hyper} {old c obj p a} : Stale k s → s.objective = some old → ¬ Spec.Improves old obj p →
      s.update c obj p a = .ok s' → Stale (k + 1) s'
  | touch {k} {s : Hyper} : Stale k s → Stale k { s with timed := true }
  | pick {k} {s : Hyper} (i : Nat) : Stale k s → Stale k (s.pick i).2

theorem update_theta {s s' : Hyper} {c : Clock} {old obj : ℚ} {p : Bool} {a : Active} (ho : s.objective = some old)
    (hs : s.update c obj p a = .ok s') :
    (Spec.Improves old obj p → s'.theta = 99 / 100) ∧
      (¬ Spec.Improves old obj p → s'.theta = max (s.theta - 1 / 10) (1 / 10)) := by
  obtain ⟨h, t, hc, hP, _, rfl⟩ := update_ok hs
  have hd : t.decreased = decide (obj < old) ∧ t.produced = p := hP.outcome old ho
  simp only [newTheta, hd.1, hd.2, hP.theta, step, Spec.Improves]
  constructor
  · rintro ⟨rfl, h2⟩
    simp [h2]
  · intro hn
    rw [if_neg]
    intro hx
    simp only [Bool.and_eq_true, decide_eq_true_eq] at hx
    exact hn ⟨hx.2, hx.1⟩

/-- **C42, scaling factor.**  `theta` is 0.99 after an update with a new column and a strictly smaller objective; with every
further update it loses 0.1, but never falls below 0.1.  Nothing else matters for it. -/
theorem C42_scaling {k : Nat} {s : Hyper} (h : Stale k s) : s.theta = max (99 / 100 - (k : ℚ) / 10) (1 / 10) := by
  induction h with
  | improved ho hi hu => rw [(update_theta ho hu).1 hi]; norm_num
  | stale _ ho hi hu ih =>
    rename_i k _ _ _ _ _ _ _ _
    rw [(update_theta ho hu).2 hi, ih]
    push_cast
    rcases le_total (99 / 100 - (k : ℚ) / 10) (1 / 10) with h1 | h1
    · rw [max_eq_right h1, max_eq_right (by norm_num), max_eq_right (by linarith)]
    · rw [max_eq_left h1]
      congr 1
      linarith
  | touch _ ih => exact ih
  | pick i _ ih => exact ih

/-- **C42, untried heuristics.**  The number of uses is counted correctly, and a heuristic that was never credited has
a score of `1e10`. -/
theorem C42_untried {Q} {l : List Heur} {s : Hyper} (hr : Reach Q l s) :
    (∀ h, s.iterations h = l.count h) ∧ ∀ h, h ∉ l → s.points h = 10000000000 := by
  induction hr with
  | start => simp
  | init c _ ih => exact ih
  | touch _ ih => exact ih
  | pick i _ ih => exact ih
  | update _ hc _ hu ih =>
    rename_i l s s' h c obj p a _ _
    obtain ⟨h', t, hc', hP, _, rfl⟩ := update_ok hu
    rw [hc] at hc'
    cases hc'
    have hit : ∀ x, t.iterations x = (l ++ [h]).count x := by
      intro x
      rw [hP.iterations, ih.1, List.count_append, List.count_singleton]
      congr 1
      by_cases hx : x = h
      · subst hx; simp
      · simp [hx, Ne.symm hx]
    refine ⟨hit, ?_⟩
    intro x hx
    have h0 : t.iterations x = 0 := by rw [hit]; exact List.count_eq_zero_of_not_mem hx
    simp only [h0, gt_iff_lt, lt_self_iff_false, if_false, hP.points]
    exact ih.2 x (fun hm => hx (List.mem_append_left _ hm))

theorem best_ne (s : Hyper) : s.best ≠ [] := by
  obtain ⟨b, hb, hmax⟩ := Finset.exists_max_image (Heur.all.toFinset) s.points ⟨.exact, by decide⟩
  have : b ∈ s.best := by
    unfold best
    rw [List.mem_filter]
    refine ⟨mem_all b, ?_⟩
    simp only [decide_eq_true_eq]
    exact fun h' _ => hmax h' (by rw [List.mem_toFinset]; exact mem_all h')
  exact List.ne_nil_of_mem this

/-- **C42, selection.**  The chosen heuristic has maximal score and becomes the current one; every heuristic of maximal
score can be chosen; nothing else changes. -/
theorem C42_selection (s : Hyper) :
    (∀ i h', s.points h' ≤ s.points (s.pick i).1) ∧ (∀ i, (s.pick i).2 = { s with current := some (s.pick i).1 }) ∧
      ∀ h, (∀ h', s.points h' ≤ s.points h) → ∃ i, (s.pick i).1 = h := by
  refine ⟨?_, fun i => rfl, ?_⟩
  · intro i h'
    have hlen : 0 < s.best.length := List.length_pos_iff.2 s.best_ne
    have hi : i % s.best.length < s.best.length := Nat.mod_lt _ hlen
    have hm : (s.pick i).1 ∈ s.best := by
      simp only [pick, List.getElem?_eq_getElem hi, Option.getD_some]
      exact List.getElem_mem hi
    have := (List.mem_filter.1 hm).2
    simp only [decide_eq_true_eq] at this
    exact this h' (mem_all h')
  · intro h hmax
    have hm : h ∈ s.best := List.mem_filter.2 ⟨mem_all h, by simpa using fun h' _ => hmax h'⟩
    obtain ⟨i, hi, rfl⟩ := List.getElem_of_mem hm
    exact ⟨i, by simp only [pick, Nat.mod_eq_of_lt hi, List.getElem?_eq_getElem hi, Option.getD_some]⟩

/-! ### Scores are small -/

/-- Bounds kept by all updates. -/
structure Bounds (s : Hyper) : Prop where
  exp : ∀ h, 0 ≤ s.exp h
  rt : ∀ h, 0 ≤ s.normRuntime h ∧ s.normRuntime h ≤ 1
  obj : ∀ h, 0 ≤ s.normObj h ∧ s.normObj h ≤ 1
  dec : ∀ h, 0 ≤ s.objDecrease h ∧ s.objDecrease h ≤ s.totalDecrease
  tried : ∀ h, s.iterations h > 0 → s.points h < inf

theorem runtimeRank_bounds {dist : List ℚ} (hd : dist ≠ []) (x : ℚ) : 0 ≤ runtimeRank dist x ∧ runtimeRank dist x ≤ 1 := by
  unfold runtimeRank
  have hpos : (0 : ℚ) < dist.length := by exact_mod_cast List.length_pos_iff.2 hd
  have hle : ((dist.filter (fun y => y ≤ x)).length : ℚ) ≤ dist.length := by exact_mod_cast List.length_filter_le _ _
  have h0 : (0 : ℚ) ≤ (dist.filter (fun y => y ≤ x)).length := by positivity
  constructor
  · apply div_nonneg <;> linarith
  · rw [div_le_one hpos]; linarith

theorem spread_bounds {s : Hyper} (h : ∀ x, 0 ≤ s.exp x) (x : Heur) : 0 ≤ s.spread x ∧ s.spread x ≤ 1 := by
  unfold spread
  simp only
  split
  · norm_num
  · rename_i hne
    have hsum : (Heur.all.map s.exp).sum = s.exp .bestPaths + s.exp .bestEdges1 + s.exp .bestEdges2 + s.exp .exact := by
      simp only [Heur.all, List.map_cons, List.map_nil, List.sum_cons, List.sum_nil]; linarith
    have a := h .bestPaths
    have b := h .bestEdges1
    have c := h .bestEdges2
    have d := h .exact
    have hpos : 0 < (Heur.all.map s.exp).sum := by
      rcases lt_or_eq_of_le (show 0 ≤ (Heur.all.map s.exp).sum by rw [hsum]; linarith) with h | h
      · exact h
      · exact absurd h.symm hne
    constructor
    · exact div_nonneg (h x) hpos.le
    · rw [div_le_one hpos, hsum]
      cases x <;> linarith

theorem share_le {a b : Nat} (h : a ≤ b) : (0 : ℚ) ≤ 1 / 2 * a / b ∧ (1 / 2 * a / b : ℚ) ≤ 1 / 2 := by
  have ha : (a : ℚ) ≤ b := by exact_mod_cast h
  have h0 : (0 : ℚ) ≤ a := by positivity
  rcases Nat.eq_zero_or_pos b with rfl | hb
  · simp
  · have hb : (0 : ℚ) < b := by exact_mod_cast hb
    constructor
    · positivity
    · rw [div_le_iff₀ hb]; linarith

theorem count_le_total (a : Active) (h : Heur) : a.count h ≤ a.total := by
  unfold Active.total
  simp only [Heur.all, List.map_cons, List.map_nil, List.sum_cons, List.sum_nil]
  cases h <;> omega

/-- The arguments of an update that the bound on the scores needs: `sqrt` is not negative, and there are not more than
`10^9` active columns. -/
def Sane (c : Clock) (_ : ℚ) (_ : Bool) (a : Active) : Prop := (∀ m n, 0 ≤ c.root m n) ∧ a.total ≤ 1000000000

theorem bounds {l : List Heur} {s : Hyper} (hr : Reach Sane l s) : s.Bounds := by
  induction hr with
  | start => exact ⟨by simp, by simp, by simp, by simp, by simp⟩
  | init c _ ih => exact ⟨ih.exp, ih.rt, ih.obj, ih.dec, ih.tried⟩
  | touch _ ih => exact ⟨ih.exp, ih.rt, ih.obj, ih.dec, ih.tried⟩
  | pick i _ ih => exact ⟨ih.exp, ih.rt, ih.obj, ih.dec, ih.tried⟩
  | update hr hc hQ hu ih =>
    obtain ⟨h1, h2⟩ := C42_theta (.update hr hc hQ hu)
    rename_i l s s' h c obj p a
    obtain ⟨h', t, hc', hP, hz, rfl⟩ := update_ok hu
    have hexp : ∀ x, 0 ≤ t.exp x := by
      intro x; rw [hP.exp]; split
      · exact hQ.1 _ _
      · exact ih.exp x
    have hrt : ∀ x, 0 ≤ t.normRuntime x ∧ t.normRuntime x ≤ 1 := by
      intro x; rw [hP.normRuntime]; split
      · exact runtimeRank_bounds hP.runtimes _
      · exact ih.rt x
    have hdec : ∀ x, 0 ≤ t.objDecrease x ∧ t.objDecrease x ≤ t.totalDecrease := by
      obtain ⟨d, hd, e1, e2⟩ := hP.objDecrease
      intro x
      rw [e1, e2]
      have := ih.dec x
      split <;> constructor <;> linarith
    have hobj : ∀ x, 0 ≤ t.normObj x ∧ t.normObj x ≤ 1 := by
      intro x; rw [hP.normObj]; split
      · rename_i hx
        refine ⟨div_nonneg (hdec x).1 hx.2.le, ?_⟩
        rw [div_le_one hx.2]
        exact (hdec x).2
      · exact ih.obj x
    refine ⟨hexp, hrt, hobj, hdec, ?_⟩
    intro x hx
    simp only at hx
    simp only [hx, if_true]
    obtain ⟨hz1, hz2⟩ := hz x hx
    unfold score
    simp only at h1 h2 ⊢
    have hsp := spread_bounds (s := { t with theta := t.newTheta }) hexp x
    have hq : (0 : ℚ) ≤ quality { t with theta := t.newTheta } x ∧ quality { t with theta := t.newTheta } x ≤ 100000000 := by
      unfold quality
      simp only
      have e1 := share_le (count_le_total t.active x)
      have e2 := hrt x
      have e3 := hobj x
      have e4 : (0 : ℚ) ≤ 1 / 20 * t.active.count x / t.added x ∧ (1 / 20 * t.active.count x / t.added x : ℚ) ≤ 50000000 := by
        have ha : (1 : ℚ) ≤ t.added x := by exact_mod_cast Nat.one_le_iff_ne_zero.2 hz2
        have hb : (t.active.count x : ℚ) ≤ 1000000000 := by
          rw [hP.active]; exact_mod_cast (count_le_total a x).trans hQ.2
        have hb0 : (0 : ℚ) ≤ t.active.count x := by positivity
        constructor
        · positivity
        · rw [div_le_iff₀ (by linarith)]; nlinarith
      constructor
      · linarith [e1.1, e2.1, e3.1, e4.1]
      · linarith [e1.2, e2.2, e3.2, e4.2]
    have ht0 : (0 : ℚ) ≤ t.newTheta := le_trans (by norm_num [step]) h1
    have k1 : t.newTheta * quality { t with theta := t.newTheta } x ≤ 100000000 :=
      (mul_le_mul h2 hq.2 hq.1 (by norm_num)).trans (by norm_num)
    have k2 : 3 / 10 * spread { t with theta := t.newTheta } x * (1 - t.newTheta) ≤ 3 / 10 := by
      have : spread { t with theta := t.newTheta } x * (1 - t.newTheta) ≤ 1 * 1 :=
        mul_le_mul hsp.2 (by linarith) (by linarith) (by norm_num)
      linarith
    unfold inf
    linarith

/-- **C42, exploration.**  As long as some heuristic was never credited, such a heuristic is chosen. -/
theorem C42_explores {l : List Heur} {s : Hyper} (hr : Reach Sane l s) (hu : ∃ h, h ∉ l) (i : Nat) : (s.pick i).1 ∉ l := by
  obtain ⟨h, hh⟩ := hu
  intro hin
  obtain ⟨h1, h2⟩ := C42_untried hr
  have hmax := (C42_selection s).1 i h
  rw [h2 h hh] at hmax
  have := (bounds hr).tried (s.pick i).1 (by rw [h1]; exact List.count_pos_iff.2 hin)
  unfold inf at this
  linarith

/-- **C43 (partial).**  Full claim: score updates never raise.  That is false: see `C43_no_active_counterexample`,
`C43_no_init_counterexample`.  Proved: they never raise once `init` was called if in every update a column was produced and some
column is active. -/
theorem C43_no_error_partial {l : List Heur} {s : Hyper} (hr : Reach (fun _ _ p a => p = true ∧ 0 < a.total) l s)
    (hinit : s.objective ≠ none) (c : Clock) (obj : ℚ) (a : Active) (ha : 0 < a.total) :
    ∃ s', s.update c obj true a = .ok s' := by
  have inv : (∀ h, s.added h = s.iterations h) ∧ (s.objective ≠ none → s.timed = true ∧ s.current ≠ none) := by
    clear hinit
    induction hr with
    | start => simp
    | init c _ ih => exact ⟨ih.1, by simp [Hyper.init]⟩
    | touch _ ih => exact ⟨ih.1, fun ho => ⟨rfl, (ih.2 ho).2⟩⟩
    | pick i _ ih => exact ⟨ih.1, fun ho => ⟨(ih.2 ho).1, by simp [pick]⟩⟩
    | update _ hc hQ hu ih =>
      obtain ⟨h', t, hc', hP, hz, rfl⟩ := update_ok hu
      refine ⟨?_, fun _ => ⟨hP.timed, ?_⟩⟩
      · intro x
        simp only
        rw [hP.added, hP.iterations, ih.1 x, hQ.1]
        simp
      · simp only
        rw [hP.current, hc']
        simp
  obtain ⟨inv1, inv2⟩ := inv
  obtain ⟨ht, hc⟩ := inv2 hinit
  obtain ⟨h, hc⟩ := Option.ne_none_iff_exists'.1 hc
  obtain ⟨old, ho⟩ := Option.ne_none_iff_exists'.1 hinit
  obtain ⟨t, htt⟩ := performance_total ht hc ho c obj true a
  obtain ⟨h', hc', hP⟩ := performance_ok htt
  unfold update
  rw [htt]
  unfold updateParameters
  simp only
  rw [if_neg]
  · exact ⟨_, rfl⟩
  · rintro ⟨x, _, hx, h0 | h0⟩
    · rw [hP.active] at h0; omega
    · rw [hP.added, inv1 x] at h0
      rw [hP.iterations] at hx
      simp only [and_true] at h0
      omega

/-- What an update needs, exactly: after a history that produced a column each time, the update raises
`ZeroDivisionError` if no column is active. -/
theorem C43_no_active_counterexample (c : Clock) (cost obj : ℚ) :
    (({} : Hyper).init cost).update c obj true ⟨fun _ => 0, 0⟩ = .error .zeroDivisionError := by
  simp [Hyper.init, update, performance, updateParameters, Heur.all, updateAt, Active.total]

/-- A heuristic that was used without producing a column makes the update raise, even with active columns. -/
theorem C43_no_column_counterexample (c : Clock) (cost obj : ℚ) :
    (({} : Hyper).init cost).update c obj false ⟨fun _ => 1, 0⟩ = .error .zeroDivisionError := by
  simp [Hyper.init, update, performance, updateParameters, Heur.all, updateAt, Active.total]

/-- Without `init` (as in a second `solve()`, see `C36`) the update raises `TypeError`. -/
theorem C43_no_init_counterexample (c : Clock) (obj : ℚ) (p : Bool) (a : Active) :
    ({} : Hyper).update c obj p a = .error .typeError := by
  simp [update, performance]

/-! ### A concrete history -/

/-- A clock. -/
def exClock : Clock := ⟨2, fun _ n => 1 / n⟩

/-- After the first update the score of `BestPaths` is 0.99 times its quality plus 0.01 times 0.3, the others are untried. -/
example : (match (({} : Hyper).init 100).update exClock 90 true ⟨fun h => if h = .bestPaths then 1 else 0, 1⟩ with
    | .ok s => decide (s.theta = 99 / 100 ∧ s.points .bestPaths = 99 / 100 * (1 / 4 + 1 / 20 + 1 / 20) + 3 / 1000 ∧
        s.points .exact = 10000000000 ∧ (s.pick 4).1 = .bestEdges2)
    | .error _ => false) = true := by decide +kernel

/-- A history for `C42_scaling`: an improvement, then an update with a column but the same objective. -/
example : ∃ s, Stale 1 s ∧ s.theta = 89 / 100 := by
  have h1 : ∃ s', (({} : Hyper).init 100).update exClock 90 true ⟨fun h => if h = .bestPaths then 1 else 0, 1⟩ = .ok s' :=
    C43_no_error_partial (l := []) (.init _ .start) (by simp [Hyper.init]) _ _ _ (by decide)
  obtain ⟨s, hs⟩ := h1
  have hr : Reach (fun _ _ p a => p = true ∧ 0 < a.total) [Heur.bestPaths] s :=
    .update (.init 100 .start) rfl ⟨rfl, by decide⟩ hs
  obtain ⟨h, t, _, hP, _, rfl⟩ := update_ok hs
  have h0 := Stale.improved (old := 100) rfl ⟨rfl, by norm_num⟩ hs
  obtain ⟨s2, hs2⟩ := C43_no_error_partial hr (by simp [hP.objective]) exClock 90
    ⟨fun h => if h = .bestPaths then 1 else 0, 1⟩ (by decide)
  have h2 := Stale.stale h0 (old := 90) hP.objective (fun hi => absurd hi.2 (by norm_num)) hs2
  exact ⟨s2, h2, by rw [C42_scaling h2]; norm_num⟩

/-- The hypotheses of the theorems above hold for this history. -/
example : ∃ s, Reach Sane [Heur.bestPaths] s ∧ (∃ h, h ∉ [Heur.bestPaths]) ∧ s.objective ≠ none := by
  have hr : Reach Sane [] (({} : Hyper).init 100) := .init _ .start
  have hu : ∃ s', (({} : Hyper).init 100).update exClock 90 true ⟨fun h => if h = .bestPaths then 1 else 0, 1⟩ = .ok s' :=
    C43_no_error_partial (l := []) (.init _ .start) (by simp [Hyper.init]) _ _ _ (by decide)
  obtain ⟨s', hs'⟩ := hu
  refine ⟨s', .update hr rfl ⟨fun m n => by simp only [exClock]; positivity, by decide⟩ hs', ⟨.exact, by decide⟩, ?_⟩
  obtain ⟨h, t, _, hP, _, rfl⟩ := update_ok hs'
  simp [hP.objective]

end Hyper

end Vrpy
