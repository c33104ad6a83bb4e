import Verif.Model.Benchmarks
import Mathlib.Analysis.Real.Sqrt
import Mathlib.Tactic.Linarith
import Mathlib.Tactic.Ring

/-!
# Facts about the loaders of the benchmark files
-/

namespace Vrpy

namespace Benchmarks

/-! ## Rounded distances -/

theorem roundRoot_near {q : ℚ} (hq : 0 ≤ q) :
    |((roundRoot q : ℕ) : ℝ) - √(q : ℝ)| ≤ 1 / 2 ∧ (|((roundRoot q : ℕ) : ℝ) - √(q : ℝ)| = 1 / 2 → roundRoot q % 2 = 0) := by
  have hfl : ((⌊q⌋₊ : ℕ) : ℚ) ≤ q := Nat.floor_le hq
  have hfu : q < (⌊q⌋₊ : ℕ) + 1 := Nat.lt_floor_add_one q
  have h1 : Nat.sqrt ⌊q⌋₊ * Nat.sqrt ⌊q⌋₊ ≤ ⌊q⌋₊ := Nat.sqrt_le _
  have h2 : ⌊q⌋₊ < (Nat.sqrt ⌊q⌋₊ + 1) * (Nat.sqrt ⌊q⌋₊ + 1) := Nat.lt_succ_sqrt _
  unfold roundRoot
  generalize Nat.sqrt ⌊q⌋₊ = n at h1 h2
  have hlo : ((n : ℚ)) ^ 2 ≤ q := by
    have : ((n * n : ℕ) : ℚ) ≤ (⌊q⌋₊ : ℕ) := by exact_mod_cast h1
    push_cast at this
    nlinarith
  have hhi : q < ((n : ℚ) + 1) ^ 2 := by
    have : ((⌊q⌋₊ + 1 : ℕ) : ℚ) ≤ (((n + 1) * (n + 1) : ℕ) : ℚ) := by exact_mod_cast h2
    push_cast at this
    nlinarith
  have hq' : (0 : ℝ) ≤ (q : ℝ) := by exact_mod_cast hq
  have hlo' : ((n : ℝ)) ^ 2 ≤ (q : ℝ) := by exact_mod_cast hlo
  have hhi' : (q : ℝ) < ((n : ℝ) + 1) ^ 2 := by exact_mod_cast hhi
  have hn0 : (0 : ℝ) ≤ n := Nat.cast_nonneg n
  have ha : (n : ℝ) ≤ √(q : ℝ) := Real.le_sqrt_of_sq_le hlo'
  have hb : √(q : ℝ) < (n : ℝ) + 1 := (Real.sqrt_lt' (by linarith)).2 hhi'
  have hcast : (((n : ℚ) + 1 / 2 : ℚ) : ℝ) = (n : ℝ) + 1 / 2 := by push_cast; ring
  simp only
  by_cases c1 : q < ((n : ℚ) + 1 / 2) ^ 2
  · simp only [if_pos c1]
    have c1' : (q : ℝ) < ((n : ℝ) + 1 / 2) ^ 2 := by
      rw [← hcast]
      exact_mod_cast c1
    have hc : √(q : ℝ) < (n : ℝ) + 1 / 2 := (Real.sqrt_lt' (by linarith)).2 c1'
    rw [abs_of_nonpos (by linarith)]
    exact ⟨by linarith, fun h => by linarith⟩
  · simp only [if_neg c1]
    by_cases c2 : ((n : ℚ) + 1 / 2) ^ 2 < q
    · simp only [if_pos c2]
      have c2' : ((n : ℝ) + 1 / 2) ^ 2 < (q : ℝ) := by
        rw [← hcast]
        exact_mod_cast c2
      have hc : (n : ℝ) + 1 / 2 < √(q : ℝ) := Real.lt_sqrt_of_sq_lt c2'
      push_cast
      rw [abs_of_nonneg (by linarith)]
      exact ⟨by linarith, fun h => by linarith⟩
    · simp only [if_neg c2]
      have heq : q = ((n : ℚ) + 1 / 2) ^ 2 := le_antisymm (not_lt.1 c2) (not_lt.1 c1)
      have hs : √(q : ℝ) = (n : ℝ) + 1 / 2 := by
        have : (q : ℝ) = ((n : ℝ) + 1 / 2) ^ 2 := by
          rw [← hcast]
          exact_mod_cast heq
        rw [this, Real.sqrt_sq (by linarith)]
      rw [hs]
      by_cases he : n % 2 = 0
      · simp only [if_pos he]
        exact ⟨by rw [abs_of_nonpos (by linarith)]; linarith, fun _ => he⟩
      · simp only [if_neg he]
        push_cast
        exact ⟨by rw [abs_of_nonneg (by linarith)]; linarith, fun _ => by omega⟩

/-- The Euclidean distance. -/
noncomputable def _root_.Vrpy.Spec.euclid (p q : ℚ × ℚ) : ℝ := √(((p.1 : ℝ) - q.1) ^ 2 + ((p.2 : ℝ) - q.2) ^ 2)

open Spec

theorem distance_near (p q : ℚ × ℚ) :
    |((distance p q : ℕ) : ℝ) - euclid p q| ≤ 1 / 2 ∧ (|((distance p q : ℕ) : ℝ) - euclid p q| = 1 / 2 → distance p q % 2 = 0) := by
  have h := roundRoot_near (q := (p.1 - q.1) ^ 2 + (p.2 - q.2) ^ 2) (by positivity)
  have e : (((p.1 - q.1) ^ 2 + (p.2 - q.2) ^ 2 : ℚ) : ℝ) = ((p.1 : ℝ) - q.1) ^ 2 + ((p.2 : ℝ) - q.2) ^ 2 := by push_cast; ring
  rw [e] at h
  exact h

theorem distance_comm (p q : ℚ × ℚ) : distance p q = distance q p := by
  unfold distance
  congr 1
  ring

theorem euclid_triangle (p q r : ℚ × ℚ) : euclid p r ≤ euclid p q + euclid q r := by
  unfold euclid
  obtain ⟨p1, p2⟩ := p
  obtain ⟨q1, q2⟩ := q
  obtain ⟨r1, r2⟩ := r
  simp only
  generalize ha : (p1 : ℝ) - q1 = a
  generalize hb : (p2 : ℝ) - q2 = b
  generalize hc : (q1 : ℝ) - r1 = c
  generalize hd : (q2 : ℝ) - r2 = d
  have h1 : (p1 : ℝ) - r1 = a + c := by rw [← ha, ← hc]; ring
  have h2 : (p2 : ℝ) - r2 = b + d := by rw [← hb, ← hd]; ring
  rw [h1, h2]
  have hA : (0 : ℝ) ≤ a ^ 2 + b ^ 2 := by positivity
  have hB : (0 : ℝ) ≤ c ^ 2 + d ^ 2 := by positivity
  have hx : a * c + b * d ≤ √(a ^ 2 + b ^ 2) * √(c ^ 2 + d ^ 2) := by
    rw [← Real.sqrt_mul hA]
    refine le_trans (le_abs_self _) (Real.abs_le_sqrt ?_)
    nlinarith [sq_nonneg (a * d - b * c)]
  apply Real.sqrt_le_iff.2
  refine ⟨by positivity, ?_⟩
  have e1 := Real.sq_sqrt hA
  have e2 := Real.sq_sqrt hB
  nlinarith

theorem distance_triangle (p q r : ℚ × ℚ) : distance p r ≤ distance p q + distance q r + 1 := by
  have h1 := abs_le.1 (distance_near p r).1
  have h2 := abs_le.1 (distance_near p q).1
  have h3 := abs_le.1 (distance_near q r).1
  have h4 := euclid_triangle p q r
  have h5 : (2 : ℝ) * distance p r ≤ 2 * distance p q + 2 * distance q r + 3 := by linarith [h1.1, h1.2, h2.1, h2.2, h3.1, h3.2]
  have h6 : 2 * distance p r ≤ 2 * distance p q + 2 * distance q r + 3 := by exact_mod_cast h5
  omega

/-! ## The complete graph -/

theorem addArcs_inner (e : Node → Node → EdgeData) (u : Node) (vs : List Node) (G : DiGraph) :
    let H := vs.foldl (fun G v => if v ≠ .source ∧ u ≠ v then G.addEdge u v (e u v) else G) G
    H.nodes = G.nodes ∧ H.nd = G.nd ∧
      (∀ x, H.succ x = if x = u then G.succ u ++ vs.filter (fun v => v ≠ .source ∧ u ≠ v) else G.succ x) ∧
      (∀ x y, H.ed x y = if x = u ∧ y ∈ vs.filter (fun v => v ≠ .source ∧ u ≠ v) then e x y else G.ed x y) := by
  induction vs generalizing G with
  | nil =>
    refine ⟨rfl, rfl, ?_, ?_⟩
    · intro x
      by_cases hx : x = u
      · simp [hx]
      · simp [hx]
    · intro x y
      simp
  | cons v vs ih =>
    simp only [List.foldl_cons]
    by_cases hv : v ≠ .source ∧ u ≠ v
    · simp only [if_pos hv]
      obtain ⟨h1, h2, h3, h4⟩ := ih (G.addEdge u v (e u v))
      refine ⟨h1, h2, ?_, ?_⟩
      · intro x
        rw [h3 x]
        by_cases hx : x = u
        · simp [hx, DiGraph.addEdge, List.filter_cons, hv]
        · simp [hx, DiGraph.addEdge]
      · intro x y
        rw [h4 x y]
        by_cases hx : x = u
        · subst hx
          by_cases hy : y ∈ vs.filter (fun v => v ≠ .source ∧ x ≠ v)
          · rw [if_pos ⟨rfl, hy⟩, if_pos ⟨rfl, List.mem_filter.2 ⟨List.mem_cons_of_mem _ (List.mem_filter.1 hy).1, (List.mem_filter.1 hy).2⟩⟩]
          · rw [if_neg (fun h => hy h.2)]
            by_cases hyv : y = v
            · subst hyv
              rw [if_pos ⟨rfl, by rw [List.filter_cons, if_pos (by simpa using hv)]; simp⟩]
              simp [DiGraph.addEdge]
            · rw [if_neg]
              · simp [DiGraph.addEdge, hyv]
              · rintro ⟨_, h⟩
                rw [List.filter_cons, if_pos (by simpa using hv)] at h
                rcases List.mem_cons.1 h with h | h
                · exact hyv h
                · exact hy h
        · simp [hx, DiGraph.addEdge]
    · simp only [if_neg hv]
      obtain ⟨h1, h2, h3, h4⟩ := ih G
      have hf : (v :: vs).filter (fun v => v ≠ .source ∧ u ≠ v) = vs.filter (fun v => v ≠ .source ∧ u ≠ v) := by
        rw [List.filter_cons, if_neg (by simpa using hv)]
      rw [hf]
      exact ⟨h1, h2, h3, h4⟩

theorem addArcs_outer (e : Node → Node → EdgeData) (ns us : List Node) (hus : us.Nodup) (G : DiGraph) :
    let H := us.foldl (addArcs e ns) G
    H.nodes = G.nodes ∧ H.nd = G.nd ∧
      (∀ x, H.succ x = if x ∈ us ∧ x ≠ .sink then G.succ x ++ ns.filter (fun v => v ≠ .source ∧ x ≠ v) else G.succ x) ∧
      (∀ x y, H.ed x y = if (x ∈ us ∧ x ≠ .sink) ∧ y ∈ ns.filter (fun v => v ≠ .source ∧ x ≠ v) then e x y else G.ed x y) := by
  induction us generalizing G with
  | nil => exact ⟨rfl, rfl, fun x => by simp, fun x y => by simp⟩
  | cons u us ih =>
    obtain ⟨hu, hus⟩ := List.nodup_cons.1 hus
    simp only [List.foldl_cons]
    obtain ⟨h1, h2, h3, h4⟩ := ih hus (addArcs e ns G u)
    unfold addArcs at h1 h2 h3 h4 ⊢
    by_cases hs : u = .sink
    · subst hs
      simp only [ne_eq, not_true_eq_false, if_false] at h1 h2 h3 h4 ⊢
      refine ⟨h1, h2, ?_, ?_⟩
      · intro x
        rw [h3 x]
        by_cases hx : x = .sink
        · simp [hx]
        · simp [hx]
      · intro x y
        rw [h4 x y]
        by_cases hx : x = .sink
        · simp [hx]
        · simp [hx]
    · simp only [ne_eq, hs, not_false_eq_true, if_true] at h1 h2 h3 h4 ⊢
      obtain ⟨g1, g2, g3, g4⟩ := addArcs_inner e u ns G
      simp only [ne_eq] at g1 g2 g3 g4
      refine ⟨h1.trans g1, h2.trans g2, ?_, ?_⟩
      · intro x
        rw [h3 x, g3 x]
        by_cases hx : x = u
        · subst hx
          simp [hu, hs]
        · simp [hx]
      · intro x y
        rw [h4 x y, g4 x y]
        by_cases hx : x = u
        · subst hx
          simp [hu, hs]
        · simp [hx]

theorem complete_spec (P : Plane) (e : Node → Node → EdgeData) (hP : P.nodes.Nodup) :
    (P.complete e).nodes = P.nodes ∧ (P.complete e).nd = P.nd ∧ (P.complete e).WF ∧
      (∀ u v, v ∈ (P.complete e).succ u ↔ u ∈ P.nodes ∧ v ∈ P.nodes ∧ u ≠ .sink ∧ v ≠ .source ∧ u ≠ v) ∧
      (∀ u v, v ∈ (P.complete e).succ u → (P.complete e).ed u v = e u v) := by
  obtain ⟨h1, h2, h3, h4⟩ := addArcs_outer e P.nodes P.nodes hP
    { nodes := P.nodes, nd := P.nd, succ := fun _ => [], ed := fun _ _ => {} }
  have hs : ∀ u v, v ∈ (P.complete e).succ u ↔ u ∈ P.nodes ∧ v ∈ P.nodes ∧ u ≠ .sink ∧ v ≠ .source ∧ u ≠ v := by
    intro u v
    rw [show (P.complete e).succ u = _ from h3 u]
    by_cases hu : u ∈ P.nodes ∧ u ≠ .sink
    · rw [if_pos hu]
      simp only [List.nil_append, List.mem_filter, decide_eq_true_eq]
      tauto
    · rw [if_neg hu]
      simp only [List.not_mem_nil, false_iff]
      tauto
  refine ⟨h1, h2, ⟨by rw [show (P.complete e).nodes = _ from h1]; exact hP, ?_, ?_⟩, hs, ?_⟩
  · intro u
    rw [show (P.complete e).succ u = _ from h3 u]
    split
    · simpa using hP.filter _
    · exact List.nodup_nil
  · intro u v hv
    rw [show (P.complete e).nodes = _ from h1]
    exact ⟨((hs u v).1 hv).1, ((hs u v).1 hv).2.1⟩
  · intro u v hv
    obtain ⟨a, b, c, d, f⟩ := (hs u v).1 hv
    rw [show (P.complete e).ed u v = _ from h4 u v, if_pos]
    refine ⟨⟨a, c⟩, ?_⟩
    rw [List.mem_filter]
    exact ⟨b, by simpa using ⟨d, f⟩⟩

/-! ## The nodes -/

theorem addNode_fresh {P : Plane} {v : Node} (p : ℚ × ℚ) (d : NodeData) (h : v ∉ P.nodes) :
    (P.addNode v p d).nodes = P.nodes ++ [v] := by
  simp [Plane.addNode, h]

/-- A loop that adds a node for each row, after Source and Sink: its result. -/
theorem rows_spec {α : Type} (node : α → Nat) (pos : α → ℚ × ℚ) (data : α → NodeData) (add : Plane → α → Plane)
    (hadd : ∀ P r, add P r = P.addNode (.cust (node r)) (pos r) (data r)) (P : Plane)
    (hP : P.nodes = [.source, .sink]) (rs : List α) (hnd : (rs.map node).Nodup) :
    (rs.foldl add P).nodes = .source :: .sink :: rs.map (fun r => .cust (node r)) ∧
      (∀ r ∈ rs, (rs.foldl add P).pos (.cust (node r)) = pos r ∧ (rs.foldl add P).nd (.cust (node r)) = data r) ∧
      ∀ v, (∀ n, v ≠ .cust n) → (rs.foldl add P).pos v = P.pos v ∧ (rs.foldl add P).nd v = P.nd v := by
  induction rs using List.reverseRecOn with
  | nil => exact ⟨by simpa using hP, by simp, fun v _ => ⟨rfl, rfl⟩⟩
  | append_singleton rs r ih =>
    rw [List.map_append, List.nodup_append] at hnd
    obtain ⟨h1, h2, h3⟩ := ih hnd.1
    have hfresh : Node.cust (node r) ∉ (rs.foldl add P).nodes := by
      rw [h1]
      intro hmem
      simp only [List.mem_cons, reduceCtorEq, List.mem_map, Node.cust.injEq, false_or] at hmem
      obtain ⟨s, hs, he⟩ := hmem
      exact hnd.2.2 (node s) (List.mem_map_of_mem hs) (node r) (by simp) he
    rw [List.foldl_append, List.foldl_cons, List.foldl_nil, hadd]
    refine ⟨?_, ?_, ?_⟩
    · rw [addNode_fresh _ _ hfresh, h1]
      simp
    · intro s hs
      rcases List.mem_append.1 hs with hs | hs
      · have hne : node s ≠ node r := hnd.2.2 (node s) (List.mem_map_of_mem hs) (node r) (by simp)
        simp only [Plane.addNode, Node.cust.injEq, if_neg hne]
        exact h2 s hs
      · obtain rfl : s = r := by simpa using hs
        simp [Plane.addNode]
    · intro v hv
      simp only [Plane.addNode, if_neg (hv _)]
      exact h3 v hv

/-- The nodes of a Solomon file whose first row is the depot. -/
theorem solomonNodes_spec {r0 : Row} {rest : List Row} (h0 : r0.name = 0) (hnd : ((r0 :: rest).map Row.name).Nodup) :
    (solomonNodes (r0 :: rest)).nodes = .source :: .sink :: rest.map (fun r => .cust r.name) ∧
      (∀ r ∈ rest, (solomonNodes (r0 :: rest)).pos (.cust r.name) = (r.x, r.y) ∧ (solomonNodes (r0 :: rest)).nd (.cust r.name) = r.data) ∧
      ∀ v, v = .source ∨ v = .sink → (solomonNodes (r0 :: rest)).pos v = (r0.x, r0.y) ∧ (solomonNodes (r0 :: rest)).nd v = r0.data := by
  rw [List.map_cons, List.nodup_cons] at hnd
  obtain ⟨hn0, hnd⟩ := hnd
  have hne : ∀ r ∈ rest, r.name ≠ 0 := by
    intro r hr he
    exact hn0 (List.mem_map.2 ⟨r, hr, he.trans h0.symm⟩)
  have hstep : ∀ P, rest.foldl addRow P = rest.foldl (fun P r => P.addNode (.cust r.name) (r.x, r.y) r.data) P := by
    intro P
    apply List.foldl_ext
    intro P r hr
    simp [addRow, Row.node, hne r hr]
  unfold solomonNodes
  rw [List.foldl_cons, hstep]
  obtain ⟨g1, g2, g3⟩ := rows_spec Row.name (fun r => (r.x, r.y)) Row.data _ (fun _ _ => rfl) (addRow {} r0)
    (by simp [addRow, Row.node, h0, Plane.addNode]) rest hnd
  refine ⟨g1, g2, ?_⟩
  rintro v (rfl | rfl)
  · obtain ⟨a, b⟩ := g3 .source (by simp)
    rw [a, b]
    simp [addRow, Row.node, h0, Plane.addNode]
  · obtain ⟨a, b⟩ := g3 .sink (by simp)
    rw [a, b]
    simp [addRow, Row.node, h0, Plane.addNode]

/-- The nodes of an Augerat file whose first row is the depot, before the demands are read. -/
theorem augeratNodes_spec {r0 : Position} {rest : List Position} (h0 : r0.name = 1) (hnd : ((r0 :: rest).map Position.name).Nodup) :
    ((r0 :: rest).foldl addPosition {}).nodes = .source :: .sink :: rest.map (fun r => .cust r.name) ∧
      (∀ r ∈ rest, ((r0 :: rest).foldl addPosition {}).pos (.cust r.name) = (r.x, r.y) ∧
        ((r0 :: rest).foldl addPosition {}).nd (.cust r.name) = { demand := some 0 }) ∧
      ∀ v, v = .source ∨ v = .sink → ((r0 :: rest).foldl addPosition {}).pos v = (r0.x, r0.y) ∧
        ((r0 :: rest).foldl addPosition {}).nd v = { demand := some 0 } := by
  rw [List.map_cons, List.nodup_cons] at hnd
  obtain ⟨hn0, hnd⟩ := hnd
  have hne : ∀ r ∈ rest, r.name ≠ 1 := by
    intro r hr he
    exact hn0 (List.mem_map.2 ⟨r, hr, he.trans h0.symm⟩)
  have hstep : ∀ P, rest.foldl addPosition P = rest.foldl (fun P r => P.addNode (.cust r.name) (r.x, r.y) { demand := some 0 }) P := by
    intro P
    apply List.foldl_ext
    intro P r hr
    simp [addPosition, augeratNode, hne r hr]
  rw [List.foldl_cons, hstep]
  obtain ⟨g1, g2, g3⟩ := rows_spec Position.name (fun r => (r.x, r.y)) (fun _ => { demand := some 0 }) _ (fun _ _ => rfl) (addPosition {} r0)
    (by simp [addPosition, augeratNode, h0, Plane.addNode]) rest hnd
  refine ⟨g1, g2, ?_⟩
  rintro v (rfl | rfl)
  · obtain ⟨a, b⟩ := g3 .source (by simp)
    rw [a, b]
    simp [addPosition, augeratNode, h0, Plane.addNode]
  · obtain ⟨a, b⟩ := g3 .sink (by simp)
    rw [a, b]
    simp [addPosition, augeratNode, h0, Plane.addNode]

end Benchmarks

end Vrpy
