import Verif.Model.CspyBack
import Verif.Props.Cspy

/-!
# C83: searching from both ends
-/

namespace Vrpy

open Spec

open Cspy

/-! ## Specification -/

/-- Service at `i` begins at time `s`; the vehicle goes on along the list, waiting where it is early.  Every node but the last is reached before it closes,
and service at the last one ends by `T`. -/
def Spec.ServedFrom (G : Net) (T : ℚ) : ℚ → Node → List Node → Prop
  | s, i, [] => s + G.service i ≤ T
  | s, i, j :: rest => s ≤ G.upper i ∧ ServedFrom G T (max (s + G.service i + G.time i j) (G.lower j)) j rest

/-- The latest time at which service at `i` may begin if the vehicle never waits afterwards. -/
def Spec.latestStart (G : Net) (T : ℚ) : Node → List Node → ℚ
  | i, [] => T - G.service i
  | i, j :: rest => min (G.upper i) (latestStart G T j rest - G.time i j - G.service i)

/-- At no node of the path does the vehicle have to wait so long that it is late later on. -/
def Spec.NoLongWait (G : Net) (T : ℚ) (path : List Node) : Prop :=
  ∀ v s, (v :: s) <:+ path → G.lower v ≤ latestStart G T v s

/-- What a search from both ends accepts: all forward labels, all backward labels and the joined label are within the limits. -/
structure Spec.JoinAccepted (q : Cspy) (m : Res) (T : ℚ) (pre : List Node) (j : Node) (rest : List Node) : Prop where
  forward : ∀ p, p <+: pre → m.within (q.consume {} .source p)
  backward : ∀ i s, (i :: s) <:+ (j :: rest) → m.within (q.backward m T i s)
  joined : m.within (q.join m T pre j rest)

/-! ## Time -/

theorem noLongWait_cons {G : Net} {T : ℚ} {j : Node} {rest : List Node} :
    NoLongWait G T (j :: rest) ↔ G.lower j ≤ latestStart G T j rest ∧ NoLongWait G T rest := by
  constructor
  · intro h
    exact ⟨h j rest (List.suffix_refl _), fun v s hs => h v s (hs.trans (List.suffix_cons _ _))⟩
  · rintro ⟨h1, h2⟩ v s hs
    rcases List.suffix_cons_iff.1 hs with he | hs
    · obtain ⟨rfl, rfl⟩ := List.cons.inj he
      exact h1
    · exact h2 v s hs

/-- Being served on time is: starting in time, and never having to wait too long. -/
theorem servedFrom_iff {G : Net} {T : ℚ} (rest : List Node) : ∀ (s : ℚ) (i : Node),
    ServedFrom G T s i rest ↔ s ≤ latestStart G T i rest ∧ NoLongWait G T rest := by
  induction rest with
  | nil =>
    intro s i
    simp only [ServedFrom, latestStart]
    constructor
    · intro h
      refine ⟨by linarith, ?_⟩
      intro v t ht
      simp at ht
    · rintro ⟨h, _⟩
      linarith
  | cons j rest ih =>
    intro s i
    simp only [ServedFrom, latestStart]
    rw [ih, noLongWait_cons, max_le_iff, le_min_iff]
    constructor
    · rintro ⟨h1, ⟨h2, h3⟩, h4⟩
      exact ⟨⟨h1, by linarith⟩, h3, h4⟩
    · rintro ⟨⟨h1, h2⟩, h3, h4⟩
      exact ⟨h1, ⟨by linarith, h3⟩, h4⟩

/-- **C83, the backward time**: what is left of the day after the latest end of service. -/
theorem C83_backward_time (q : Cspy) (m : Res) (T : ℚ) (rest : List Node) : ∀ i : Node,
    (q.backward m T i rest).time = T - q.G.service i - latestStart q.G T i rest := by
  induction rest with
  | nil => intro i; simp [backward, latestStart]
  | cons j rest ih =>
    intro i
    simp only [backward, refBwd, latestStart]
    rw [ih j]
    rcases le_total (q.G.upper i) (latestStart q.G T j rest - q.G.time i j - q.G.service i) with h | h
    · rw [min_eq_left h, max_eq_right (by linarith)]
      ring
    · rw [min_eq_right h, max_eq_left (by linarith)]
      ring

/-- **C83, joined labels**: the legs and the load are those of the whole route. -/
theorem C83_legs_and_load {q : Cspy} {m : Res} {T : ℚ} {mid pre rest : List Node} {j : Node} (hc : q.custom = true)
    (hsplit : mid ++ [Node.sink] = pre ++ j :: rest) :
    (q.join m T pre j rest).stops = mid.length + 1 ∧ (q.join m T pre j rest).load = (mid.map q.G.demand).sum := by
  have hs : ∀ (rest : List Node) (i : Node), (q.backward m T i rest).stops = m.stops - rest.length := by
    intro rest
    induction rest with
    | nil => intro i; simp [backward]
    | cons k rest ih =>
      intro i
      simp only [backward, refBwd]
      rw [ih k]
      simp only [List.length_cons, Nat.cast_add, Nat.cast_one]
      ring
  have hl : ∀ (rest : List Node) (i : Node), (q.backward m T i rest).load = ((i :: rest).dropLast.map q.G.demand).sum := by
    intro rest
    induction rest with
    | nil => intro i; simp [backward]
    | cons k rest ih =>
      intro i
      simp only [backward, refBwd]
      rw [ih k, List.dropLast_cons_cons, List.map_cons, List.sum_cons]
      ring
  refine ⟨?_, ?_⟩
  · simp only [join, refJoin]
    rw [consume_stops, hs]
    have := congrArg List.length hsplit
    simp only [List.length_append, List.length_cons, List.length_nil] at this
    have h2 : (mid.length : ℚ) + 1 = pre.length + (rest.length + 1) := by exact_mod_cast this
    rw [h2]
    show (0 : ℚ) + pre.length + (m.stops - (m.stops - rest.length)) + 1 = _
    ring
  · simp only [join, refJoin]
    rw [consume_load (Or.inl hc), hl]
    have hm : mid = pre ++ (j :: rest).dropLast := by
      have := congrArg List.dropLast hsplit
      rw [List.dropLast_concat, List.dropLast_append_of_ne_nil (by simp)] at this
      exact this
    rw [hm, List.map_append, List.sum_append]
    show (0 : ℚ) + _ + _ = _
    ring

/-- Driving on from `u`, where service begins at `t`: being on time at every node is being served by `T`. -/
theorem onTime_served {G : Net} {T : ℚ} (hT : ∀ v, Node.sink ∈ G.succ v → G.upper v + G.service v + G.time v .sink ≤ T) (hT' : T ≤ G.upper .sink)
    (hlow : G.lower .sink ≤ T) (hser : G.service .sink = 0) (rest : List Node) : ∀ (t : ℚ) (u j : Node), t ≤ G.upper u →
    Along (fun u v => v ∈ G.succ u) (u :: j :: rest) → (j :: rest).getLast (by simp) = .sink →
    ((∀ p ∈ (j :: rest).zip (arrivalsFrom G t u (j :: rest)), p.2 ≤ G.upper p.1) ↔
      ServedFrom G T (max (t + G.service u + G.time u j) (G.lower j)) j rest) := by
  induction rest with
  | nil =>
    intro t u j ht hal hlast
    simp only [List.getLast_singleton] at hlast
    subst hlast
    have harc : Node.sink ∈ G.succ u := (along_iff _ _).1 hal u .sink (by simp)
    simp only [arrivalsFrom, List.zip_cons_cons, List.zip_nil_right, List.forall_mem_cons, List.not_mem_nil, ServedFrom, hser, add_zero,
      false_implies, implies_true, and_true]
    constructor
    · intro _
      exact max_le (by have := hT u harc; linarith) hlow
    · intro h
      exact le_trans h hT'
  | cons k rest ih =>
    intro t u j ht hal hlast
    rw [arrivalsFrom]
    simp only [List.zip_cons_cons, List.forall_mem_cons, ServedFrom]
    have hal' : Along (fun u v => v ∈ G.succ u) (j :: k :: rest) := by
      rw [along_iff] at hal ⊢
      intro a b hab
      exact hal a b (by rw [consecutive_cons_cons]; exact List.mem_cons_of_mem _ hab)
    constructor
    · rintro ⟨h1, h2⟩
      exact ⟨h1, (ih _ j k h1 hal' (by rw [List.getLast_cons (by simp)] at hlast; exact hlast)).1 h2⟩
    · rintro ⟨h1, h2⟩
      exact ⟨h1, (ih _ j k h1 hal' (by rw [List.getLast_cons (by simp)] at hlast; exact hlast)).2 h2⟩

theorem le_maxArrival {q : Cspy} (htw : q.timeWindows = true) (hG : WellFormed q.G) {v : Node} (hv : Node.sink ∈ q.G.succ v) :
    q.G.upper v + q.G.service v + q.G.time v .sink ≤ q.maxArrival := by
  have hmem : v ∈ q.G.preds .sink := by
    rw [Net.mem_preds hG]
    exact hv
  unfold maxArrival
  rw [if_pos htw]
  have hm : q.G.upper v + q.G.service v + q.G.time v .sink ∈
      (q.G.preds .sink).map (fun v => q.G.upper v + q.G.service v + q.G.time v .sink) := List.mem_map.2 ⟨v, hmem, rfl⟩
  cases hx : ((q.G.preds .sink).map (fun v => q.G.upper v + q.G.service v + q.G.time v .sink)).max? with
  | none =>
    rw [List.max?_eq_none_iff] at hx
    rw [hx] at hm
    cases hm
  | some x =>
    exact (List.max?_eq_some_iff.1 hx).2 _ hm

/-- **C83, time** (partial): if the windows are such that arriving at Sink by `T` is arriving before Sink closes (true for tightened windows), then a route is on time
exactly if the forward part is on time, the joined time is at most `T`, and at no node of the backward part the vehicle has to wait so long that it is late later
on.  What is missing: the test of `REF_bwd` that should check the latter looks at the wrong node's window; it is neither sufficient (`C83_wait_counterexample`) nor
necessary (`C83_flag_counterexample`). -/
theorem C83_on_time_partial {q : Cspy} {m : Res} {mid pre rest : List Node} {j : Node} (hG : WellFormed q.G) (htw : q.timeWindows = true)
    (hstart : StartFits q.G mid) (hday : 0 ≤ q.G.upper .source) (hroute : IsRoute q.G (routeOf mid)) (hT : q.maxArrival ≤ q.G.upper .sink)
    (hlow : q.G.lower .sink ≤ q.maxArrival) (hser : q.G.service .sink = 0) (hsplit : mid ++ [Node.sink] = pre ++ j :: rest) :
    OnTime q.G (routeOf mid) ↔ (∀ p, p <+: pre → (q.consume {} .source p).windows ≤ 0) ∧
      (q.join m q.maxArrival pre j rest).time ≤ q.maxArrival ∧ NoLongWait q.G q.maxArrival (j :: rest) := by
  have hcu : q.custom = true := by simp [custom, htw]
  obtain ⟨_, _, _, hal⟩ := hroute
  have hw := windows_iff htw (mid ++ [Node.sink]) {} .source
  have hot : OnTime q.G (routeOf mid) ↔ ∀ p, p <+: mid ++ [Node.sink] → (q.consume {} .source p).windows ≤ 0 := by
    rw [hw, onTime_start hstart]
    exact ⟨fun h => ⟨le_refl _, h⟩, fun h => h.2⟩
  rw [hot, hsplit]
  have hsplit2 : (∀ p, p <+: pre ++ j :: rest → (q.consume {} .source p).windows ≤ 0) ↔
      (∀ p, p <+: pre → (q.consume {} .source p).windows ≤ 0) ∧
      ∀ p, p <+: j :: rest → (q.consume (q.consume {} .source pre) (tailOf pre) p).windows ≤ 0 := by
    constructor
    · intro h
      refine ⟨fun p hp => h p (hp.trans (List.prefix_append _ _)), ?_⟩
      intro p hp
      have := h (pre ++ p) ((List.prefix_append_right_inj pre).2 hp)
      rw [consume_append] at this
      exact this
    · rintro ⟨h1, h2⟩ p hp
      rcases List.prefix_or_prefix_of_prefix hp (List.prefix_append pre (j :: rest)) with hp' | ⟨p', rfl⟩
      · exact h1 p hp'
      · rw [consume_append]
        exact h2 p' ((List.prefix_append_right_inj pre).1 hp)
  rw [hsplit2]
  have hlast : (j :: rest).getLast (by simp) = .sink := by
    have : (mid ++ [Node.sink]).getLast (by simp) = Node.sink := by simp
    simp only [hsplit] at this
    rw [List.getLast_append_of_ne_nil (by simp)] at this
    exact this
  have hal' : Along (fun u v => v ∈ q.G.succ u) (tailOf pre :: j :: rest) := by
    rw [routeOf, hsplit, along_iff] at hal
    rw [along_iff]
    intro a b hab
    refine hal a b ?_
    have e : Node.source :: (pre ++ j :: rest) = (Node.source :: pre).dropLast ++ (tailOf pre :: j :: rest) := by
      have := List.dropLast_append_getLast (l := Node.source :: pre) (by simp)
      unfold tailOf
      conv_lhs => rw [← List.cons_append, ← this]
      simp
    obtain ⟨x, y, hxy⟩ := mem_consecutive_iff.1 hab
    rw [e, hxy]
    exact mem_consecutive_iff.2 ⟨(Node.source :: pre).dropLast ++ x, y, by simp⟩
  refine and_congr_right ?_
  intro hf
  have htail : (q.consume {} .source pre).time ≤ q.G.upper (tailOf pre) := by
    rcases List.eq_nil_or_concat' pre with rfl | ⟨p, v, rfl⟩
    · exact hday
    · have hfin := hf (p ++ [v]) (List.prefix_refl _)
      have ht : tailOf (p ++ [v]) = v := by
        unfold tailOf
        simp
      rw [ht]
      rw [consume_append] at hfin ⊢
      simp only [consume, ref, if_pos hcu, refFwd, htw] at hfin ⊢
      by_contra hcon
      rw [if_neg (by simpa using hcon)] at hfin
      norm_num at hfin
  have hwin : (∀ p, p <+: j :: rest → (q.consume (q.consume {} .source pre) (tailOf pre) p).windows ≤ 0) ↔
      ∀ p ∈ (j :: rest).zip (arrivalsFrom q.G (q.consume {} .source pre).time (tailOf pre) (j :: rest)), p.2 ≤ q.G.upper p.1 := by
    rw [windows_iff htw]
    exact ⟨fun h => h.2, fun h => ⟨hf pre (List.prefix_refl _), h⟩⟩
  rw [hwin, onTime_served (T := q.maxArrival) (fun v hv => le_maxArrival htw hG hv) hT hlow hser rest _ _ _ htail hal' hlast, servedFrom_iff, noLongWait_cons,
    max_le_iff]
  have hj : (q.join m q.maxArrival pre j rest).time ≤ q.maxArrival ↔
      (q.consume {} .source pre).time + q.G.service (tailOf pre) + q.G.time (tailOf pre) j ≤ latestStart q.G q.maxArrival j rest := by
    simp only [join, refJoin]
    rw [C83_backward_time]
    constructor <;> intro h <;> linarith
  rw [hj]
  tauto

/-! ## Goods -/

/-- **C83, goods** (partial): if all labels and the joined label are within the limits, the goods on board never exceed the capacity.  What is missing: the
converse is false (`C83_goods_counterexample`), since `REF_bwd` counts deliveries twice. -/
theorem C83_goods_partial {q : Cspy} {m : Res} {T cap : ℚ} {mid pre rest : List Node} {j : Node} (hG : WellFormed q.G) (hform : q.formulate = .ok m)
    (hdc : q.distributionCollection = true) (hcap : q.caps[q.vehicleType]? = some cap)
    (hd : q.G.demand .sink = 0) (hc : q.G.collect .source = 0)
    (hgoods : NonnegativeGoods q.G) (hroute : IsRoute q.G (routeOf mid)) (hsplit : mid ++ [Node.sink] = pre ++ j :: rest)
    (h : JoinAccepted q m T pre j rest) : GoodsWithin q.G cap (routeOf mid) := by
  have hmem := route_nodes hG hroute
  obtain ⟨_, _, f3, _⟩ := formulate_ok hform
  have hne : q.caps ≠ [] := by
    intro he
    rw [he] at hcap
    simp at hcap
  obtain ⟨g1, g2, _⟩ := f3 hne
  obtain ⟨g2, g3⟩ := g2 hdc
  have hm : m.load = cap := by
    rw [hcap] at g1; exact (Option.some.inj g1).symm
  have hj := within_iff.1 h.joined
  have hj4 := hj.2.2.2.2.1.2
  have hj5 := hj.2.2.2.2.2.2
  simp only [join, refJoin, if_pos hdc] at hj4 hj5
  rw [g2, hm] at hj4
  rw [g3, hm] at hj5
  have hback : ∀ (rest : List Node) (i : Node), (∀ v ∈ i :: rest, 0 ≤ q.G.demand v) →
      (((i :: rest).dropLast.map q.G.demand).sum ≤ (q.backward m T i rest).deliver) ∧
      ∀ a b, (i :: rest).dropLast = a ++ b →
        (a.map q.G.collect).sum + (b.map q.G.demand).sum ≤ (q.backward m T i rest).collect := by
    intro rest
    induction rest with
    | nil =>
      intro i _
      refine ⟨by simp [backward], ?_⟩
      intro a b hab
      simp only [List.dropLast_singleton] at hab
      rw [eq_comm, List.append_eq_nil_iff] at hab
      obtain ⟨rfl, rfl⟩ := hab
      simp [backward]
    | cons k rest ih =>
      intro i hnn
      obtain ⟨ih1, ih2⟩ := ih k (fun v hv => hnn v (List.mem_cons_of_mem _ hv))
      have h0 : 0 ≤ ((k :: rest).dropLast.map q.G.demand).sum := by
        apply List.sum_nonneg
        intro x hx
        obtain ⟨v, hv, rfl⟩ := List.mem_map.1 hx
        exact hnn v (List.mem_cons_of_mem _ (List.mem_of_mem_dropLast hv))
      rw [List.dropLast_cons_cons]
      simp only [backward, refBwd, if_pos hdc]
      refine ⟨by rw [List.map_cons, List.sum_cons]; linarith, ?_⟩
      intro a b hab
      cases a with
      | nil =>
        rw [List.nil_append] at hab
        rw [← hab, List.map_cons, List.sum_cons]
        refine le_trans ?_ (le_max_left _ _)
        simp only [List.map_nil, List.sum_nil]
        linarith
      | cons x a =>
        simp only [List.cons_append, List.cons.injEq] at hab
        obtain ⟨rfl, hab⟩ := hab
        refine le_trans ?_ (le_max_right _ _)
        rw [List.map_cons, List.sum_cons]
        have := ih2 a b hab
        linarith
  have hsuf : ∀ v ∈ j :: rest, 0 ≤ q.G.demand v := fun v hv =>
    hgoods.demand v (hmem v (by rw [hsplit]; exact List.mem_append_right _ hv))
  obtain ⟨hb5, hb4⟩ := hback rest j hsuf
  have hmid : mid = pre ++ (j :: rest).dropLast := by
    have := congrArg List.dropLast hsplit
    rw [List.dropLast_concat, List.dropLast_append_of_ne_nil (by simp)] at this
    exact this
  rw [consume_collect hdc] at hj4
  have hf5 : (q.consume {} .source pre).deliver ≤ cap - ((j :: rest).dropLast.map q.G.demand).sum := by linarith
  rw [deliver_le_iff hdc] at hf5
  obtain ⟨k1, k2⟩ := hf5
  intro p1 p2 hpp hne1 hne2
  cases p1 with
  | nil => exact absurd rfl hne1
  | cons x a =>
    rw [routeOf, List.cons_append, List.cons.injEq] at hpp
    obtain ⟨rfl, hpp⟩ := hpp
    obtain ⟨b, rfl⟩ : ∃ b, p2 = b ++ [Node.sink] := by
      rcases List.eq_nil_or_concat' p2 with rfl | ⟨b, z, rfl⟩
      · exact absurd rfl hne2
      · rw [← List.append_assoc] at hpp
        have := List.append_inj_right' hpp rfl
        exact ⟨b, by rw [this]⟩
    have hab : mid = a ++ b := by
      rw [← List.append_assoc] at hpp
      exact List.append_cancel_right hpp
    rw [hmid] at hab
    simp only [load, List.map_cons, List.sum_cons, hc, List.map_append, List.sum_append, hd, List.map_nil, List.sum_nil, zero_add, add_zero]
    rcases List.append_eq_append_iff.1 hab with ⟨c, rfl, hc2⟩ | ⟨c, rfl, rfl⟩
    · have := hb4 c b hc2
      rw [List.map_append, List.sum_append]
      have e : (({} : Res).collect) = 0 := rfl
      rw [e] at hj4
      linarith
    · by_cases ha : a = []
      · subst ha
        have e : (({} : Res).deliver) = 0 := rfl
        rw [e] at k1
        simp only [List.nil_append, List.map_append, List.sum_append, List.map_nil, List.sum_nil] at k1 ⊢
        linarith
      · have := k2 a c rfl ha
        have e : (({} : Res).collect) = 0 := rfl
        rw [e] at this
        rw [List.map_append, List.sum_append]
        linarith

/-! ## Cases -/

/-- Acceptance can be checked by running through the labels. -/
theorem joinAccepted_iff {q : Cspy} {m : Res} {T : ℚ} {pre rest : List Node} {j : Node} :
    JoinAccepted q m T pre j rest ↔ (∀ p ∈ pre.inits, m.within (q.consume {} .source p)) ∧
      (∀ l ∈ (j :: rest).tails, (match l with
        | [] => true
        | i :: s => m.within (q.backward m T i s)) = true) ∧ m.within (q.join m T pre j rest) := by
  constructor
  · rintro ⟨h1, h2, h3⟩
    refine ⟨fun p hp => h1 p ((List.mem_inits _ _).1 hp), ?_, h3⟩
    intro l hl
    cases l with
    | nil => rfl
    | cons i s => exact h2 i s ((List.mem_tails _ _).1 hl)
  · rintro ⟨h1, h2, h3⟩
    exact ⟨fun p hp => h1 p ((List.mem_inits _ _).2 hp), fun i s hs => h2 (i :: s) ((List.mem_tails _ _).2 hs), h3⟩

/-- Three customers in a row, one unit of time between neighbours; customer 1 opens at 20, customer 3 closes at `c`. -/
def exRow (lower1 upper2 upper3 : ℚ) : Net where
  nodes := [.source, .cust 1, .cust 2, .cust 3, .sink]
  succ
    | .source => [.cust 1]
    | .cust 1 => [.cust 2]
    | .cust 2 => [.cust 3]
    | .cust 3 => [.sink]
    | _ => []
  lower := fun v => if v = .cust 1 then lower1 else 0
  upper := fun v => if v = .cust 2 then upper2 else if v = .cust 3 then upper3 else if v = .sink then upper3 + 1 else 30
  cost := fun _ _ => [1]
  time := fun _ _ => 1

theorem exRow_wf (a b c : ℚ) : WellFormed (exRow a b c) := by
  refine ⟨by show List.Nodup [Node.source, .cust 1, .cust 2, .cust 3, .sink]; decide, ?_, ?_, ?_, ?_, ?_, ?_⟩
  · intro u; simp only [exRow]; split <;> decide
  · intro u v; simp only [exRow]; split <;> simp <;> tauto
  · show _ ∈ [Node.source, .cust 1, .cust 2, .cust 3, .sink]; decide
  · show _ ∈ [Node.source, .cust 1, .cust 2, .cust 3, .sink]; decide
  · intro u; simp only [exRow]; split <;> decide
  · rfl

theorem exRow_route (a b c : ℚ) : IsRoute (exRow a b c) (routeOf [.cust 1, .cust 2, .cust 3]) :=
  (isSimpleRoute_routeOf (L := [.cust 1, .cust 2, .cust 3])
    (by show ∀ v ∈ [Node.cust 1, .cust 2, .cust 3], v ∈ [Node.source, .cust 1, .cust 2, .cust 3, .sink].filter _; decide) (by decide)
    (by simp [Along, routeOf, exRow])).1

def exBack (lower1 upper2 upper3 : ℚ) : Cspy where
  G := exRow lower1 upper2 upper3
  weight := fun _ _ => -1
  numStops := some 3
  timeWindows := true

/-- `C83_on_time_partial` applies: customer 1 opens at 20 and customer 3 closes at 25; whichever leg the labels are joined at. -/
example : OnTime (exRow 20 30 25) (routeOf [.cust 1, .cust 2, .cust 3]) ∧
    (exBack 20 30 25).maxArrival = 26 ∧ ((exBack 20 30 25).join {} 26 [] (.cust 1) [.cust 2, .cust 3, .sink]).time ≤ 26 ∧
    ((exBack 20 30 25).join {} 26 [.cust 1] (.cust 2) [.cust 3, .sink]).time ≤ 26 := by
  have h := C83_on_time_partial (q := exBack 20 30 25) (m := {}) (mid := [.cust 1, .cust 2, .cust 3]) (pre := [.cust 1])
    (j := .cust 2) (rest := [.cust 3, .sink]) (exRow_wf _ _ _) rfl (Or.inl rfl) (by decide +kernel) (exRow_route _ _ _) (by decide +kernel)
    (by decide +kernel) rfl rfl
  have h' := C83_on_time_partial (q := exBack 20 30 25) (m := {}) (mid := [.cust 1, .cust 2, .cust 3]) (pre := [])
    (j := .cust 1) (rest := [.cust 2, .cust 3, .sink]) (exRow_wf _ _ _) rfl (Or.inl rfl) (by decide +kernel) (exRow_route _ _ _) (by decide +kernel)
    (by decide +kernel) rfl rfl
  have hT : (exBack 20 30 25).maxArrival = 26 := by decide +kernel
  have ho : OnTime (exRow 20 30 25) (routeOf [.cust 1, .cust 2, .cust 3]) := by
    show ∀ p ∈ _, _
    decide +kernel
  rw [hT] at h h'
  exact ⟨ho, hT, (h'.1 ho).2.1, (h.1 ho).2.1⟩

/-- **C83, counterexample**: customer 1 opens at 20 and customer 3 closes at 21, two units of time away.  All labels and the joined label are within the limits,
because `REF_bwd` compares with the window of the next node, but the vehicle is late at customer 3. -/
theorem C83_wait_counterexample : ∃ m, (exBack 20 30 21).formulate = .ok m ∧
    JoinAccepted (exBack 20 30 21) m (exBack 20 30 21).maxArrival [] (.cust 1) [.cust 2, .cust 3, .sink] ∧
    (exBack 20 30 21).maxArrival ≤ (exBack 20 30 21).G.upper .sink ∧
    ¬ OnTime (exBack 20 30 21).G (routeOf [.cust 1, .cust 2, .cust 3]) ∧
    ¬ WithinLimits (exBack 20 30 21) m (routeOf [.cust 1, .cust 2, .cust 3]) := by
  refine ⟨_, rfl, joinAccepted_iff.2 (by decide +kernel), by decide +kernel, ?_, ?_⟩
  · show ¬ ∀ p ∈ _, _
    decide +kernel
  · rw [routeOf, withinLimits_of rfl]
    decide +kernel

/-- Customer 3 can be served at 20 only. -/
def exFlag : Cspy where
  G := { exRow 0 30 20 with lower := fun v => if v = .cust 3 then 20 else 0 }
  weight := fun _ _ => -1
  numStops := some 3
  timeWindows := true

/-- **C83, counterexample**: the route is on time and cspy accepts it searching forward, but the backward label of customer 2 is refused: `REF_bwd` wants service at
customer 2 to be over when customer 3 opens. -/
theorem C83_flag_counterexample : ∃ m, exFlag.formulate = .ok m ∧
    OnTime exFlag.G (routeOf [.cust 1, .cust 2, .cust 3]) ∧ WithinLimits exFlag m (routeOf [.cust 1, .cust 2, .cust 3]) ∧
    m.within (exFlag.backward m exFlag.maxArrival (.cust 3) [.sink]) = true ∧
    m.within (exFlag.backward m exFlag.maxArrival (.cust 2) [.cust 3, .sink]) = false := by
  refine ⟨_, rfl, ?_, ?_, by decide +kernel, by decide +kernel⟩
  · show ∀ p ∈ _, _
    decide +kernel
  · rw [routeOf, withinLimits_of rfl]
    decide +kernel

/-- Goods for three customers, one unit each, and a vehicle of a given capacity. -/
def exGoods (cap : ℚ) : Cspy where
  G := { exRow 0 30 30 with demand := fun v => if v.isDepot then 0 else 1 }
  weight := fun _ _ => -1
  caps := [cap]
  numStops := some 3
  distributionCollection := true

/-- **C83, counterexample**: three units fit into the vehicle, and cspy accepts the route searching forward; but the backward label of all three customers says 7
units (1, then 1 + 1 + 1, then 3 + 3 + 1). -/
theorem C83_goods_counterexample : ∃ m, (exGoods 3).formulate = .ok m ∧
    WithinLimits (exGoods 3) m (routeOf [.cust 1, .cust 2, .cust 3]) ∧
    ((exGoods 3).backward m 0 (.cust 1) [.cust 2, .cust 3, .sink]).deliver = 7 ∧
    ¬ JoinAccepted (exGoods 3) m 0 [] (.cust 1) [.cust 2, .cust 3, .sink] ∧
    ¬ JoinAccepted (exGoods 3) m 0 [.cust 1] (.cust 2) [.cust 3, .sink] := by
  refine ⟨_, rfl, ?_, by decide +kernel, ?_, ?_⟩
  · rw [routeOf, withinLimits_of rfl]
    decide +kernel
  · rw [joinAccepted_iff]
    decide +kernel
  · rw [joinAccepted_iff]
    decide +kernel

/-- `C83_goods_partial` applies with a vehicle for seven units. -/
example : ∃ m, (exGoods 7).formulate = .ok m ∧ JoinAccepted (exGoods 7) m 0 [.cust 1] (.cust 2) [.cust 3, .sink] :=
  ⟨_, rfl, joinAccepted_iff.2 (by decide +kernel)⟩

end Vrpy
