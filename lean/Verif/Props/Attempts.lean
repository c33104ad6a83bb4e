import Verif.Props.Pricing
import Verif.Props.Solve
import Verif.Proofs.ExactPaths

/-!
# C79: the searches of a pricing heuristic widen
-/

namespace Vrpy

open Spec

/-- The pricing problems of a heuristic, in order: 3, 5, 7, 9 paths; 30%, 50%, 70%, 90% of the largest dual value; 10%, 20%, 30% of the
arcs between customers; the whole graph. -/
def Spec.widenings : Heur → List Strategy
  | .bestPaths => [3, 5, 7, 9].map Strategy.bestPaths
  | .bestEdges1 => [3, 5, 7, 9].map (fun n : ℚ => .bestEdges1 (n / 10))
  | .bestEdges2 => [1, 2, 3].map (fun n : ℚ => .bestEdges2 (n / 10))
  | .exact => [.exact]

/-- Without the hyper-heuristic the whole graph is searched if nothing was found. -/
def Spec.searches : PricingMode → Heur → List Strategy
  | .hyper, h => widenings h
  | .fixed _, .exact => [.exact]
  | .fixed _, h => widenings h ++ [.exact]

namespace Solve

theorem strategies_eq (m : PricingMode) (h : Heur) : strategies m h = searches m h := by
  cases m <;> cases h <;> simp [strategies, searches, parameters, widenings]

/-- **C79, order.**  For one vehicle type the searches are made in this order until one finds a column; none is left out, and
none is made after a success. -/
theorem C79_search {cfg : SolveCfg} {env : Env} {d : Duals} {k t t' : Nat} {h : Heur} {cols cols' : List Column} {more : Bool}
    (hspan : cfg.M.globalSpan = false) (hp : priceAll cfg env d k (jobs cfg h cols) t cols = .ok (cols', more, t')) :
    ∃ before after, searches cfg.pricing h = before ++ after ∧
      (∀ i s, before[i]? = some s → price cfg env (t + i) d k none cols s = .ok (cols, false)) ∧
      (more = false → after = [] ∧ cols' = cols ∧ t' = t + before.length) ∧
      (more = true → ∃ s rest, after = s :: rest ∧ price cfg env (t + before.length) d k none cols s = .ok (cols', true) ∧
        t' = t + before.length + 1) := by
  unfold jobs at hp
  rw [hspan, strategies_eq] at hp
  simp only [Bool.false_eq_true, if_false] at hp
  generalize searches cfg.pricing h = l at hp ⊢
  induction l generalizing t with
  | nil =>
    simp only [List.map_nil, priceAll, Except.ok.injEq, Prod.mk.injEq] at hp
    obtain ⟨rfl, rfl, rfl⟩ := hp
    exact ⟨[], [], rfl, by simp, fun _ => ⟨rfl, rfl, rfl⟩, fun hf => (by cases hf)⟩
  | cons s l ih =>
    simp only [List.map_cons, priceAll] at hp
    cases hq : price cfg env t d k none cols s with
    | error e => simp only [hq] at hp; cases hp
    | ok r =>
      obtain ⟨cols1, b⟩ := r
      cases b with
      | true =>
        simp only [hq, Except.ok.injEq, Prod.mk.injEq] at hp
        obtain ⟨rfl, rfl, rfl⟩ := hp
        exact ⟨[], s :: l, rfl, by simp, fun hf => (by cases hf), fun _ => ⟨s, l, rfl, hq, rfl⟩⟩
      | false =>
        simp only [hq] at hp
        obtain rfl : cols1 = cols := by
          rcases price_step hq with ⟨_, h⟩ | ⟨hf, _⟩
          · exact h
          · cases hf
        obtain ⟨before, after, h1, h2, h3, h4⟩ := ih hp
        refine ⟨s :: before, after, by rw [h1]; rfl, ?_, ?_, ?_⟩
        · intro i s' hs
          cases i with
          | zero => simp only [List.getElem?_cons_zero, Option.some.injEq] at hs; subst hs; exact hq
          | succ i =>
            rw [List.getElem?_cons_succ] at hs
            have := h2 i s' hs
            rwa [show t + 1 + i = t + (i + 1) by omega] at this
        · intro hf
          obtain ⟨g1, g2, g3⟩ := h3 hf
          exact ⟨g1, g2, by rw [g3, List.length_cons]; omega⟩
        · intro hf
          obtain ⟨s', rest, g1, g2, g3⟩ := h4 hf
          refine ⟨s', rest, g1, ?_, by rw [g3, List.length_cons]; omega⟩
          rwa [show t + 1 + before.length = t + (s :: before).length by rw [List.length_cons]; omega] at g2

end Solve

theorem IsSubgraph.removeEdges_mono {G : Net} {es es' : List (Node × Node)} (h : ∀ e ∈ es', e ∈ es) :
    IsSubgraph (G.removeEdges es) (G.removeEdges es') where
  nodes := fun _ h => h
  arcs := fun u v hv => by
    simp only [Net.removeEdges, List.mem_filter, decide_eq_true_eq] at hv ⊢
    exact ⟨hv.1, fun hm => hv.2 (h _ hm)⟩
  demand := rfl
  collect := rfl
  service := rfl
  lower := rfl
  upper := rfl
  freq := rfl
  request := rfl
  cost := rfl
  time := rfl

private theorem le_largestDual {d : Duals} {m : ℚ} (h : largestDual d = .ok m) :
    ∀ x ∈ d.visit.map Prod.snd ++ d.span.map Prod.snd, x ≤ m := by
  unfold largestDual at h
  intro x hx
  cases hl : d.visit.map Prod.snd ++ d.span.map Prod.snd with
  | nil => rw [hl] at hx; simp at hx
  | cons y ys =>
    rw [hl] at h hx
    simp only [Except.ok.injEq] at h
    subst h
    rcases List.mem_cons.1 hx with rfl | hx
    · exact (le_foldl_max _ _).1
    · exact (le_foldl_max _ _).2 x hx

private theorem nested1 {G : Net} {d : Duals} {k : Nat} {route : Option ColName} {paths paths' : PathsOracle} {a b : ℚ}
    (h0 : 0 < a) (hab : a ≤ b)
    (hsign : (∀ e ∈ G.edges, 0 ≤ (G.cost e.1 e.2).getD k 0) ∨ ∃ x ∈ d.visit.map Prod.snd ++ d.span.map Prod.snd, 0 ≤ x)
    {w w' : Node → Node → ℚ} {S S' : SubGraph} (h : subProblem G d k route paths (.bestEdges1 a) = .ok (w, S))
    (h' : subProblem G d k route paths' (.bestEdges1 b) = .ok (w', S')) : w = w' ∧ IsSubgraph S.G S'.G := by
  unfold subProblem at h h'
  cases hw : reducedCosts G d k route with
  | error e => simp only [hw] at h; cases h
  | ok w0 =>
    simp only [hw, removeEdges1] at h h'
    cases hm : largestDual d with
    | error e => simp only [hm] at h; cases h
    | ok m =>
      simp only [hm, Except.ok.injEq, Prod.mk.injEq] at h h'
      obtain ⟨rfl, rfl⟩ := h
      obtain ⟨rfl, rfl⟩ := h'
      refine ⟨rfl, IsSubgraph.removeEdges_mono ?_⟩
      intro e he
      simp only [List.mem_filter, decide_eq_true_eq] at he ⊢
      refine ⟨he.1, ?_⟩
      by_cases h0m : 0 ≤ m
      · exact lt_of_le_of_lt (mul_le_mul_of_nonneg_right hab h0m) he.2
      · rcases hsign with hs | ⟨x, hx, hx0⟩
        · have : a * m < 0 := mul_neg_of_pos_of_neg h0 (not_le.1 h0m)
          exact lt_of_lt_of_le this (hs e he.1)
        · exact absurd (hx0.trans (le_largestDual hm x hx)) h0m

private theorem nested2 {G : Net} {d : Duals} {k : Nat} {route : Option ColName} {paths paths' : PathsOracle} {a b : ℚ}
    (hab : a ≤ b) {w w' : Node → Node → ℚ} {S S' : SubGraph} (h : subProblem G d k route paths (.bestEdges2 a) = .ok (w, S))
    (h' : subProblem G d k route paths' (.bestEdges2 b) = .ok (w', S')) : w = w' ∧ IsSubgraph S.G S'.G := by
  unfold subProblem at h h'
  cases hw : reducedCosts G d k route with
  | error e => simp only [hw] at h; cases h
  | ok w0 =>
    simp only [hw, removeEdges2, Except.ok.injEq, Prod.mk.injEq] at h h'
    obtain ⟨rfl, rfl⟩ := h
    obtain ⟨rfl, rfl⟩ := h'
    refine ⟨rfl, IsSubgraph.removeEdges_mono ?_⟩
    intro e he
    have hle : ⌊a * ((sortedInnerEdges G w0).length : ℚ)⌋.toNat ≤ ⌊b * ((sortedInnerEdges G w0).length : ℚ)⌋.toNat :=
      Int.toNat_le_toNat (Int.floor_le_floor (mul_le_mul_of_nonneg_right hab (Nat.cast_nonneg _)))
    obtain ⟨n, hn⟩ := Nat.exists_eq_add_of_le hle
    rw [hn, ← List.drop_drop] at he
    exact List.mem_of_mem_drop he

private theorem nested3 {G : Net} {d : Duals} {k : Nat} {route : Option ColName} {paths paths' : PathsOracle} {a b : Nat}
    (hpaths : ∀ w, paths G w a <+: paths' G w b)
    {w w' : Node → Node → ℚ} {S S' : SubGraph} (h : subProblem G d k route paths (.bestPaths a) = .ok (w, S))
    (h' : subProblem G d k route paths' (.bestPaths b) = .ok (w', S')) : w = w' ∧ IsSubgraph S.G S'.G := by
  unfold subProblem at h h'
  cases hw : reducedCosts G d k route with
  | error e => simp only [hw] at h; cases h
  | ok w0 =>
    simp only [hw, removeEdges3] at h h'
    cases hm : positiveWeights G w0 with
    | error e => simp only [hm] at h; cases h
    | ok pw =>
      simp only [hm] at h h'
      by_cases hb : paths G pw a = []
      · simp only [if_pos hb] at h; cases h
      · by_cases hb' : paths' G pw b = []
        · simp only [if_pos hb'] at h'; cases h'
        · simp only [if_neg hb, if_neg hb', Except.ok.injEq, Prod.mk.injEq] at h h'
          obtain ⟨rfl, rfl⟩ := h
          obtain ⟨rfl, rfl⟩ := h'
          have hsub : ∀ e ∈ (paths G pw a).flatMap consecutive, e ∈ (paths' G pw b).flatMap consecutive := by
            intro e he
            rw [List.mem_flatMap] at he ⊢
            obtain ⟨p, hp, he⟩ := he
            exact ⟨p, (hpaths pw).subset hp, he⟩
          refine ⟨rfl, ?_, ?_, rfl, rfl, rfl, rfl, rfl, rfl, rfl, rfl, rfl⟩
          · intro v hv
            simp only [Net.edgeSubgraph, List.mem_filter, List.any_eq_true, decide_eq_true_eq] at hv ⊢
            obtain ⟨h1, e, he, h2⟩ := hv
            exact ⟨h1, e, hsub e he, h2⟩
          · intro u v hv
            simp only [Net.edgeSubgraph, List.mem_filter, decide_eq_true_eq] at hv ⊢
            exact ⟨hv.1, hsub _ hv.2⟩

private theorem nested_exact {G : Net} {d : Duals} {k : Nat} {route : Option ColName} {paths paths' : PathsOracle} {s : Strategy}
    {w w' : Node → Node → ℚ} {S S' : SubGraph} (h : subProblem G d k route paths s = .ok (w, S))
    (h' : subProblem G d k route paths' .exact = .ok (w', S')) : w = w' ∧ IsSubgraph S.G S'.G := by
  have hsub := C15_subgraph h
  unfold subProblem at h h'
  cases hw : reducedCosts G d k route with
  | error e => simp only [hw] at h; cases h
  | ok w0 =>
    simp only [hw, Except.ok.injEq, Prod.mk.injEq] at h h'
    obtain ⟨rfl, rfl⟩ := h'
    refine ⟨?_, hsub⟩
    cases s with
    | exact => simp only [Except.ok.injEq, Prod.mk.injEq] at h; exact h.1.symm
    | bestEdges2 _ => simp only [Except.ok.injEq, Prod.mk.injEq] at h; exact h.1.symm
    | bestEdges1 a =>
      cases hr : removeEdges1 G d k a with
      | error e => simp only [hr] at h; cases h
      | ok _ => simp only [hr, Except.ok.injEq, Prod.mk.injEq] at h; exact h.1.symm
    | bestPaths a =>
      cases hr : removeEdges3 G w0 paths a with
      | error e => simp only [hr] at h; cases h
      | ok _ => simp only [hr, Except.ok.injEq, Prod.mk.injEq] at h; exact h.1.symm

/-- **C79, widening.**  Of the searches of a heuristic for the same dual values, each one looks at a part of the graph of every later
one, with the same reduced costs.  (The paths of networkx come in one order, however many are asked for; the costs or the largest
dual value are not negative.) -/
theorem C79_widening {G : Net} {d : Duals} {k : Nat} {route : Option ColName} {paths : Nat → PathsOracle}
    (hpaths : ∀ t t' w a b, a ≤ b → paths t G w a <+: paths t' G w b)
    (hsign : (∀ e ∈ G.edges, 0 ≤ (G.cost e.1 e.2).getD k 0) ∨ ∃ x ∈ d.visit.map Prod.snd ++ d.span.map Prod.snd, 0 ≤ x)
    (m : PricingMode) (h : Heur) :
    (searches m h).Pairwise (fun s s' => ∀ t t' w w' S S', subProblem G d k route (paths t) s = .ok (w, S) →
      subProblem G d k route (paths t') s' = .ok (w', S') → w = w' ∧ IsSubgraph S.G S'.G) := by
  have hw : (widenings h).Pairwise (fun s s' => ∀ t t' w w' S S', subProblem G d k route (paths t) s = .ok (w, S) →
      subProblem G d k route (paths t') s' = .ok (w', S') → w = w' ∧ IsSubgraph S.G S'.G) := by
    cases h with
    | exact => simp [widenings]
    | bestPaths =>
      simp only [widenings]
      rw [List.pairwise_map]
      refine List.Pairwise.imp (R := fun a b => a ≤ b) ?_ (by decide)
      intro a b hab t t' w w' S S' h1 h2
      exact nested3 (fun w => hpaths t t' w a b hab) h1 h2
    | bestEdges1 =>
      simp only [widenings]
      rw [List.pairwise_map]
      refine List.Pairwise.imp (R := fun a b => 0 < a ∧ a ≤ b) ?_ (by norm_num)
      rintro a b ⟨ha, hab⟩ t t' w w' S S' h1 h2
      exact nested1 (by positivity) (by linarith) hsign h1 h2
    | bestEdges2 =>
      simp only [widenings]
      rw [List.pairwise_map]
      refine List.Pairwise.imp (R := fun a b => a ≤ b) ?_ (by norm_num)
      intro a b hab t t' w w' S S' h1 h2
      exact nested2 (by linarith) h1 h2
  cases m with
  | hyper => exact hw
  | fixed g =>
    have hall : (widenings h ++ [Strategy.exact]).Pairwise (fun s s' => ∀ t t' w w' S S', subProblem G d k route (paths t) s = .ok (w, S) →
        subProblem G d k route (paths t') s' = .ok (w', S') → w = w' ∧ IsSubgraph S.G S'.G) := by
      rw [List.pairwise_append]
      refine ⟨hw, by simp, ?_⟩
      intro s _ s' hs'
      rw [List.mem_singleton] at hs'
      subst hs'
      intro t t' w w' S S' h1 h2
      exact nested_exact h1 h2
    cases h with
    | exact => exact hw
    | bestPaths => exact hall
    | bestEdges1 => exact hall
    | bestEdges2 => exact hall

/-- Two customers; the arcs between them and the round trip of the second are dear. -/
def exWiden : Net where
  nodes := [.source, .cust 1, .cust 2, .sink]
  succ := fun u => match u with
    | .source => [.cust 1, .cust 2]
    | .cust 1 => [.cust 2, .sink]
    | .cust 2 => [.cust 1, .sink]
    | _ => []
  cost := fun u v => if u = .cust 2 ∨ v = .cust 2 then [6] else [3]

/-- The hypotheses of `C79_widening` hold for this graph and a way to list paths. -/
example : (∀ w a b, a ≤ b → Net.bestPaths exWiden w a <+: Net.bestPaths exWiden w b) ∧
    (∀ e ∈ exWiden.edges, 0 ≤ (exWiden.cost e.1 e.2).getD 0 0) :=
  ⟨fun w a b hab => List.take_prefix_take_left hab, by decide +kernel⟩

/-- With largest dual value 10, BestEdges1 searches first the arcs of the first customer alone, later all. -/
example : ((searches (.fixed .bestEdges1) .bestEdges1).map (fun s =>
      (subProblem exWiden { visit := [(.cust 1, 10), (.cust 2, 9)] } 0 none Net.bestPaths s).toOption.map (fun r => r.2.G.edges.length))) =
    [some 2, some 2, some 6, some 6, some 6] := by decide +kernel

/-- A round trip that is paid for. -/
def exPaid : Net where
  nodes := [.source, .cust 1, .sink]
  succ := fun u => match u with
    | .source => [.cust 1]
    | .cust 1 => [.sink]
    | _ => []
  cost := fun _ _ => [-4]

/-- **C79, where it fails.**  With negative costs and negative dual values BestEdges1 searches less and less. -/
theorem C79_widening_counterexample : ∃ (G : Net) (d : Duals) (S S' : SubGraph) (w : Node → Node → ℚ), WellFormed G ∧
    subProblem G d 0 none Net.bestPaths (.bestEdges1 (3 / 10)) = .ok (w, S) ∧
    subProblem G d 0 none Net.bestPaths (.bestEdges1 (5 / 10)) = .ok (w, S') ∧ S.run = true ∧ S'.run = false := by
  have hw : ∃ w, reducedCosts exPaid { visit := [(.cust 1, -10)] } 0 none = .ok w := ⟨_, rfl⟩
  obtain ⟨w, hw⟩ := hw
  refine ⟨exPaid, { visit := [(.cust 1, -10)] }, _, _, w, ?_, by rw [subProblem, hw]; rfl, by rw [subProblem, hw]; rfl,
    by decide +kernel, by decide +kernel⟩
  refine ⟨by decide, ?_, ?_, by decide, by decide, ?_, by decide⟩
  · intro u; simp only [exPaid]; split <;> decide
  · intro u v; simp only [exPaid]; split <;> simp <;> tauto
  · intro u; simp only [exPaid]; split <;> decide

namespace Solve

/-- **C15, skipped searches.** A search that is skipped finds no column and changes nothing, whatever the solver would have answered. -/
theorem C15_skipped {cfg : SolveCfg} {env : Env} {t : Nat} {d : Duals} {k : Nat} {route : Option ColName} {cols : List Column}
    {s : Strategy} {w : Node → Node → ℚ} {S : SubGraph} (hG : WellFormed cfg.M.G)
    (hpaths : ∀ pw beta, Normalised cfg.M.G w pw → BestSimplePaths cfg.M.G pw beta (env.paths t cfg.M.G pw beta))
    (h : subProblem cfg.M.G d k route (env.paths t) s = .ok (w, S)) (hs : s ≠ .exact) (hno : ¬ Connected S.G) :
    price cfg env t d k route cols s = .ok (cols, false) := by
  have hr : S.run = false := by
    have := (C15_searched hG hpaths h).2.1 hs
    cases hS : S.run with
    | false => rfl
    | true => exact absurd (this.1 hS) hno
  unfold price
  simp only [h, hr]
  split <;> rfl

/-- **C79, end.**  A round after which no column is left to find has made all the searches of a heuristic for all vehicle types, in vain. -/
theorem C79_round {cfg : SolveCfg} {env : Env} {dive : Bool} {st st' : SolveState} (hspan : cfg.M.globalSpan = false)
    (hK : cfg.K ≠ 0) (h : findColumns cfg env dive st = .ok st') (hm : st'.more = false) :
    ∃ d cost st1 h st2, solveMaster cfg env dive st = .ok (d, cost, st1) ∧ nextStrategy cfg env st1 cost = .ok (h, st2) ∧
      ∀ k < cfg.K, ∃ t cols, ∀ i s, (searches cfg.pricing h)[i]? = some s → price cfg env (t + i) d k none cols s = .ok (cols, false) := by
  obtain ⟨d, cost, st1, hh, st2, st3, h1, h2, h3, h4⟩ := findColumns_inv h
  refine ⟨d, cost, st1, hh, st2, h1, h2, ?_⟩
  have hm3 : st3.more = false := by
    rw [← hm, (count_step h4).2.2.2.1]
  have hks : List.range cfg.K ≠ [] := by simpa using hK
  suffices hl : ∀ ks : List Nat, ks ≠ [] → ∀ st, vehicleLoop cfg env d hh ks st = .ok st3 → ∀ k ∈ ks, ∃ t cols, ∀ i s,
      (searches cfg.pricing hh)[i]? = some s → price cfg env (t + i) d k none cols s = .ok (cols, false) from
    fun k hk => hl _ hks st2 h3 k (List.mem_range.2 hk)
  intro ks
  induction ks with
  | nil => intro hn; exact absurd rfl hn
  | cons k ks ih =>
    intro _ st hl
    simp only [vehicleLoop] at hl
    cases hg : greedyPhase cfg env d k st with
    | error e => simp only [hg] at hl; cases hl
    | ok st0 =>
      simp only [hg] at hl
      cases hp : priceAll cfg env d k (jobs cfg hh st0.cols) st0.tick st0.cols with
      | error e => simp only [hp] at hl; cases hl
      | ok r =>
        obtain ⟨cols, more, t⟩ := r
        cases more with
        | true =>
          simp only [hp] at hl
          unfold register at hl
          split at hl
          · cases hl
          · obtain ⟨_, rfl⟩ := addToMaster_ok hl
            simp at hm3
        | false =>
          simp only [hp] at hl
          obtain ⟨before, after, g1, g2, g3, _⟩ := C79_search hspan hp
          obtain ⟨rfl, rfl, _⟩ := g3 rfl
          rw [List.append_nil] at g1
          intro k' hk'
          rcases List.mem_cons.1 hk' with rfl | hk'
          · exact ⟨_, _, by rw [g1]; exact g2⟩
          · exact ih (List.ne_nil_of_mem hk') _ hl k' hk'

end Solve

end Vrpy
