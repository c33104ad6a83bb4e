import Verif.Proofs.Windows
import Verif.Props.EndToEnd

/-!
# C60, C61: plans for problems with time windows or with distribution and collection

As for C55, everything is stated in terms of the problem `P0` handed to the constructor.
-/

namespace Vrpy

/-- Goods to collect at a node, 0 if not given. -/
def Spec.userCollect (G : DiGraph) (v : Node) : ℚ := (G.nd v).collect.getD 0

/-- How long a route takes, without waiting. -/
def Spec.userDuration (G : DiGraph) (r : List Node) : ℚ := legSum (userTime G) r + (r.map (userService G)).sum

open Spec

/-- Every customer can be visited alone within the duration. -/
def Spec.RoundTripsFit (P : Vrp) : Prop :=
  ∀ n, Node.cust n ∈ P.G.nodes → Within P.duration.limit (userDuration P.G (routeOf [.cust n]))

/-- A vehicle of type `k` can visit `mid`: not too many stops, and neither too much to deliver, nor too late, nor (if goods are
also collected) too much on board on the way; nor does it take too long (claimed if single customers do not). -/
structure Spec.RouteLimits (P : Vrp) (k : Nat) (mid : List Node) : Prop where
  stops : WithinStops P.numStops.stops mid.length
  load : WithinCapacity (userCapacities P.loadCapacity) k (mid.map (userDemand P.G)).sum
  windows : P.timeWindows = true → UserOnTime P.G (routeOf mid)
  goods : P.distributionCollection = true → ∀ pre post, mid = pre ++ post →
    WithinCapacity (userCapacities P.loadCapacity) k ((pre.map (userCollect P.G)).sum + (post.map (userDemand P.G)).sum)
  duration : RoundTripsFit P → Within P.duration.limit (userDuration P.G (routeOf mid))

/-- The problem has time windows, or goods are distributed and collected (or both).  The data make sense: demands, collects are
not negative, the depots have no service time and nothing is collected there, windows are not empty, a single customer's
goods fit into every vehicle, arcs have costs as documented; Source is the first node of the graph. -/
structure Spec.VariantData (P : Vrp) : Prop where
  wf : P.G.WF
  customer : ∃ n, Node.cust n ∈ P.G.nodes
  costs : CostsAsDocumented P
  demand : ∀ v ∈ P.G.nodes, 0 ≤ userDemand P.G v
  service : (P.G.nd .source).serviceTime.getD 0 = 0 ∧ (P.G.nd .sink).serviceTime.getD 0 = 0
  either : P.timeWindows = true ∨ P.distributionCollection = true
  source : P.timeWindows = true → P.G.nodes.head? = some .source ∧ 0 ≤ userLower P.G .source
  windows : P.timeWindows = true → ∀ v ∈ P.G.nodes, v ≠ .source → (v = .sink → userUpper P.G .sink ≠ 0) →
    userLower P.G v ≤ userUpper P.G v
  collect : P.distributionCollection = true → ∀ v ∈ P.G.nodes, 0 ≤ userCollect P.G v ∧
    (v = .source ∨ v = .sink → userCollect P.G v = 0) ∧ ∀ c ∈ userCapacities P.loadCapacity, userCollect P.G v ≤ c
  pickupDelivery : P.pickupDelivery = false
  oneCapacity : P.mixedFleet = false → (userCapacities P.loadCapacity).length ≤ 1

/-- The same without periodic visits. -/
structure Spec.WindowedOrCollecting (P : Vrp) : Prop extends VariantData P where
  periodic : P.periodic.getD 0 = 0

/-- The routes form a plan whose routes are within the limits. -/
def Spec.SolvesVariant (P : Vrp) (K : Nat) (S : Solution) : Prop :=
  PlanFor P K (fun k r => ∃ mid, r = routeOf mid ∧ RouteLimits P k mid) S

/-- The initial columns stand for routes with the property `F`, if the initial routes do whose arcs exist and whose load the
vehicle can carry. -/
theorem initial_columns {P0 P' P'' : Vrp} {K : Nat} {N N3 : Net} {cw : ℚ → CWOracle} {fuel : Nat} {cols : List Column}
    {F : Nat → List Node → Prop} (hone : P0.mixedFleet = false → (userCapacities P0.loadCapacity).length ≤ 1)
    (S : Searched P0 P' K N N3)
    (hF : ∀ rs, P'.chooseInitial N3 cw fuel = .ok (some rs) → ∀ r ∈ rs, Along (fun u v => v ∈ N3.succ u) r →
      IsSimpleRoute N3 r ∧ ∀ k, WithinCapacity (userCapacities P0.loadCapacity) k (load N3 r) → F k r)
    (h : P'.initialize P'.G.toNet cw fuel = .ok (some (P'', cols))) :
    Solve.Numbered cols ∧ (∀ c ∈ cols, ColumnFor N3 K F c) ∧ ∃ rs, P'' = { P' with initialRoutes := rs } := by
  have hN3 : P'.G.toNet = N3 := by rw [S.graph]; rfl
  rw [hN3] at h
  unfold Vrp.initialize at h
  cases hch : P'.chooseInitial N3 cw fuel with
  | error e => simp [hch] at h
  | ok x =>
    cases x with
    | none => simp [hch] at h
    | some rs =>
      simp only [hch] at h
      cases hcv : convertRoutes N3 (capacities P'.loadCapacity.toList) rs with
      | error e => simp [hcv] at h
      | ok cols' =>
        simp only [hcv, Except.ok.injEq, Option.some.injEq, Prod.mk.injEq] at h
        obtain ⟨rfl, rfl⟩ := h
        refine ⟨Solve.C33_initial hcv, ?_, rs, rfl⟩
        rw [S.caps] at hcv
        intro c hc
        have hall := py_mapM_ok.1 hcv
        obtain ⟨p, hp, hcp⟩ : ∃ p ∈ rs.zipIdx 1, convertRoute N3 (userCapacities P0.loadCapacity) p.2 p.1 = .ok c := by
          obtain ⟨i, hi, rfl⟩ := List.getElem_of_mem hc
          have hri : i < (rs.zipIdx 1).length := by rw [hall.length_eq]; exact hi
          exact ⟨_, List.getElem_mem hri, (List.forall₂_iff_get.1 hall).2 i hri hi⟩
        obtain ⟨hal, k, hk, rfl⟩ := convertRoute_ok.1 hcp
        obtain ⟨hr, hst⟩ := hF rs hch p.1 (List.fst_mem_of_mem_zipIdx hp)
          (by rw [along_iff] at hal ⊢; exact fun a b hab => (hal a b hab).1)
        obtain ⟨⟨mid, hmid, _, _⟩, hnd⟩ := id hr
        refine ⟨?_, Or.inr ⟨p.1, hr, ⟨?_, ?_, by simp⟩, hst _ ?_⟩⟩
        · rcases firstType_some.1 hk with ⟨_, rfl⟩ | ⟨hlt, _⟩
          · exact S.typesPos
          · cases hm : P0.mixedFleet with
            | false => exact lt_of_lt_of_le hlt ((hone hm).trans S.typesPos)
            | true =>
              rw [S.typesCaps hm (by intro h0; rw [h0] at hlt; simp at hlt)] at hlt
              exact hlt
        · refine (List.perm_ext_iff_of_nodup (nodup_graphNodes _) hnd).2 (fun v => ?_)
          exact mem_graphNodes_consecutive (by rw [hmid]; simp [routeOf]) v
        · exact graphEdges_perm (consecutive_nodup hnd)
        · intro hne
          rcases firstType_some.1 hk with ⟨h0, _⟩ | ⟨hlt, hle, _⟩
          · exact absurd h0 hne
          · exact ⟨_, List.getElem?_eq_getElem hlt, by simpa [List.getD_eq_getElem?_getD, hlt] using hle⟩

/-- The column that cspy finds is within cspy's limits. -/
theorem cspy_column_limits {q : Cspy} {run : Bool} {keys : List Node} {oracle : Cspy.Oracle} {cols cols' : List Column}
    (hsound : CspySound q oracle) (h : q.solve run keys oracle cols = .ok (cols', true)) :
    ∃ m col r, q.formulate = .ok m ∧ cols' = cols ++ [col] ∧ col.path = some r ∧ WithinLimits q m r := by
  obtain ⟨m, e, c, path, col, hform, horacle, _, hneg, hcol, hnew, rfl⟩ := cspy_solve_inv h
  obtain ⟨o1, o2, o3, o4, _, o6⟩ := hsound m e c path horacle
  unfold Cspy.createRoute at hcol
  simp only at hcol
  split at hcol
  · cases hcol
  · split at hcol
    · cases hcol
    · simp only [Except.ok.injEq] at hcol
      subst hcol
      exact ⟨m, _, path, hform, rfl, rfl, o6⟩

/-- Pricing with cspy alone yields columns for routes within cspy's limits on a part of the network. -/
theorem price_cspy {cfg : SolveCfg} {env : Env} {d : Duals} {F : Nat → List Node → Prop} (hcspy : cfg.cspy = true)
    (hgreedy : Solve.usesGreedy cfg = false) (hG : WellFormed cfg.M.G) (hdem : cfg.M.G.demand .source = 0)
    (hser : cfg.M.G.service .sink = 0) (hsound : ∀ t q, CspySound q (env.cspy t q)) (hpaths : ∀ t, PathsOk (env.paths t))
    (hF : ∀ (q : Cspy) m r, IsSubgraph q.G cfg.M.G → WellFormed q.G → q.caps = cfg.caps → q.numStops = cfg.numStops →
      q.duration = cfg.duration → q.timeWindows = cfg.timeWindows → q.distributionCollection = cfg.distributionCollection →
      q.formulate = .ok m → WithinLimits q m r → IsRoute q.G r → r.Nodup → F q.vehicleType r) :
    Solve.PriceOk cfg env d (ColumnFor cfg.M.G cfg.K F) := by
  constructor
  · intro k hk t route cols s cols' _ h c hc
    unfold Solve.price at h
    cases hs : subProblem cfg.M.G d k route (env.paths t) s with
    | error e => simp [hs] at h
    | ok wS =>
      obtain ⟨w, S⟩ := wS
      simp only [hs, hcspy, if_true] at h
      have hsub := C15_subgraph hs
      have hwf := subProblem_wf hG (hpaths t) hs
      obtain ⟨m, col0, r0, hform, hc0, hp0, hlim⟩ := cspy_column_limits (hsound t _) h
      obtain ⟨col, r, rfl, hpath, htype, hroute, _, _, _, _, _, henc, hnon, _⟩ :=
        C21_columns_partial hwf (by rw [hsub.demand]; exact hdem) (by rw [hsub.service]; exact hser) (hsound t _) h
      have he : col0 = col := by
        have := List.append_cancel_left hc0
        simpa using this.symm
      subst he
      have hr : r0 = r := by rw [hpath] at hp0; exact (Option.some.inj hp0).symm
      subst hr
      rw [List.mem_append, List.mem_singleton] at hc
      rcases hc with hc | rfl
      · exact Or.inl hc
      right
      refine ⟨by rw [htype]; exact hk, ?_⟩
      by_cases hnd : r0.Nodup
      · right
        obtain ⟨_, he⟩ := henc hnd
        refine ⟨r0, isSimpleRoute_mono hsub.nodes hsub.arcs ⟨hroute, hnd⟩,
          ⟨he.nodes, he.edges, fun p hp => by rw [hpath] at hp; exact (Option.some.inj hp).symm⟩, ?_⟩
        rw [htype]
        exact hF _ m r0 hsub hwf rfl rfl rfl rfl rfl hform hlim hroute hnd
      · exact Or.inl ⟨_, hnon hnd⟩
  · intro k hk st st' h c hc
    unfold Solve.greedyPhase at h
    rw [hgreedy] at h
    simp only [Bool.false_eq_true, if_false, pure, Except.pure, Except.ok.injEq] at h
    subst h
    exact Or.inl hc

theorem onTime_same {G H : Net} (h1 : H.service = G.service) (h2 : H.time = G.time) (h3 : H.lower = G.lower)
    (h4 : H.upper = G.upper) {r : List Node} (h : OnTime H r) : OnTime G r := by
  cases r with
  | nil => trivial
  | cons u rest =>
    intro p hp
    rw [← h4]
    refine h p ?_
    rw [arrivalsFrom_congr h1 h2 h3, h3]
    exact hp

/-- Sums over customers agree with the user's. -/
theorem duration_user {P0 P' : Vrp} {K : Nat} {N N3 : Net} (S : Searched P0 P' K N N3) {r : List Node}
    (hr : Along (fun u v => v ∈ N.succ u) r) (hn : ∀ v ∈ r, v ∈ N.nodes) :
    Spec.duration N r = userDuration P0.G r := by
  unfold Spec.duration userDuration travel
  congr 1
  · refine legSum_congr (fun u v huv => ?_)
    rw [S.time u v ((along_iff _ _).1 hr u v huv)]
    rfl
  · congr 1
    exact List.map_congr_left (fun v hv => S.service v (hn v hv))

theorem route_mem_nodes {G : Net} (hG : WellFormed G) {r : List Node} (h : IsRoute G r) : ∀ v ∈ r, v ∈ G.nodes := by
  obtain ⟨mid, rfl, h1, _⟩ := h
  intro v hv
  simp only [routeOf, List.mem_cons, List.mem_append, List.not_mem_nil, or_false] at hv
  rcases hv with rfl | hv | rfl
  · exact hG.source_mem
  · exact (h1 v hv).2
  · exact hG.sink_mem

/-- Routes within cspy's limits are within the user's. -/
theorem limits_user {P0 P' : Vrp} {K : Nat} {N N3 : Net} (hP : VariantData P0) (S : Searched P0 P' K N N3)
    (U : UserData P0 P' N) {q : Cspy} {m : Res} {mid : List Node} (hsub : IsSubgraph q.G N3) (hwf : WellFormed q.G)
    (hcaps : q.caps = userCapacities P0.loadCapacity) (hst : q.numStops = P'.numStops.stops)
    (hdur : q.duration = P0.duration.limit) (htw : q.timeWindows = P0.timeWindows)
    (hdc : q.distributionCollection = P0.distributionCollection) (hform : q.formulate = .ok m)
    (hlim : WithinLimits q m (routeOf mid)) (hroute : IsRoute q.G (routeOf mid)) : RouteLimits P0 q.vehicleType mid := by
  have hser := S.serviceDepots hP.service.1 hP.service.2
  obtain ⟨_, l2, l3, l4, _⟩ := limits_of_within hform (by rw [hsub.demand, S.same.demand]; exact S.demandDepots.1)
    (by rw [hsub.service, S.same.service]; exact hser.2) hlim
  have hrN3 : IsRoute N3 (routeOf mid) := by
    obtain ⟨mid', he, h1, h2⟩ := hroute
    refine ⟨mid', he, fun v hv => ⟨(h1 v hv).1, hsub.nodes v (h1 v hv).2⟩, ?_⟩
    rw [along_iff] at h2 ⊢
    exact fun u v huv => hsub.arcs u v (h2 u v huv)
  have hrN : IsRoute N (routeOf mid) := by
    obtain ⟨mid', he, h1, h2⟩ := hrN3
    refine ⟨mid', he, fun v hv => ⟨(h1 v hv).1, by rw [← S.nodes]; exact (h1 v hv).2⟩, ?_⟩
    rw [along_iff] at h2 ⊢
    exact fun u v huv => S.same.succ u v (h2 u v huv)
  have hmid : ∀ v ∈ mid, (∃ n, v = .cust n) ∧ v ∈ P0.G.nodes := by
    intro v hv
    obtain ⟨mid', he, h1, _⟩ := hrN
    have : mid' = mid := by
      simp only [routeOf, List.cons.injEq, true_and] at he
      exact (List.append_cancel_right he).symm
    subst this
    exact ⟨(h1 v hv).1, by rw [← S.userNodes]; exact (h1 v hv).2⟩
  have hmidc : ∀ v ∈ mid, v ∈ N.customers := by
    intro v hv
    obtain ⟨⟨n, rfl⟩, hn⟩ := hmid v hv
    exact mem_customers.2 ⟨by rw [S.userNodes]; exact hn, by simp, by simp⟩
  have hal : Along (fun u v => v ∈ N.succ u) (routeOf mid) := by obtain ⟨_, _, _, h⟩ := hrN; exact h
  have hal3 : Along (fun u v => v ∈ N3.succ u) (routeOf mid) := by obtain ⟨_, _, _, h⟩ := hrN3; exact h
  obtain ⟨e1, e2⟩ := load_user S hmid
  rw [load_congr hsub.demand, e1, hcaps] at l3
  refine ⟨?_, l3, ?_, ?_, ?_⟩
  · rw [hst] at l2
    exact U.stops (fun hd v hv => ⟨(hP.collect hd v hv).1, (hP.collect hd v hv).2.1⟩) _ l2
  · intro ht
    obtain ⟨hfirst, hlow⟩ := hP.source ht
    obtain ⟨w1, w2, w3⟩ := S.windows ht hfirst
    cases hm : mid with
    | nil =>
      rw [hm] at hal3
      refine short_onTime S U w3 hser.1 (fun v hv hs h0 => ?_) (fun v hv => ?_) (by simp) (by simp) hal3
      · exact hP.windows ht v hv (by rw [hs]; simp) (fun _ => h0)
      · obtain ⟨a, b, c⟩ := mem_customers.1 hv
        exact hP.windows ht v (by rw [← S.userNodes]; exact a) b (fun h => absurd h c)
    | cons v rest =>
      have hvc : v ∈ N.customers := hmidc v (by rw [hm]; simp)
      have hsrc : Node.source ∉ N.customers := fun h => (mem_customers.1 h).2.1 rfl
      have hfits : StartFits q.G mid := by
        right
        rw [hsub.lower, hsub.service, hsub.time, S.same.service, S.same.time, w1]
        have hls : (strengthened N).lower .source = N.lower .source := by simp [strengthened, hsrc]
        rw [hls]
        refine ⟨by rw [U.lower _ S.wf.source_mem]; exact hlow, v, rest, hm, ?_⟩
        rw [hser.1]
        simp [strengthened, hvc]
      have hon := C19_accepted_on_time_partial hform (by rw [htw]; exact ht) hfits hlim
      have hon3 : OnTime N3 (routeOf mid) := onTime_same hsub.service hsub.time hsub.lower hsub.upper hon
      rw [← hm]
      exact onTime_user S U hal (S.onTime w1 w2 hon3)
  · intro hd pre post hpp hne
    obtain ⟨cap, hcap, _⟩ := l3 hne
    refine ⟨cap, hcap, ?_⟩
    have hcol : ∀ v ∈ N.nodes, N.collect v = userCollect P0.G v := U.collect
    have hgoods : NonnegativeGoods q.G := by
      constructor
      · intro v hv
        rw [hsub.demand, S.same.demand]
        have hvN : v ∈ N.nodes := by rw [← S.nodes]; exact hsub.nodes v hv
        by_cases h1 : v = .source
        · rw [h1, S.demandDepots.1]
        · by_cases h2 : v = .sink
          · rw [h2, S.demandDepots.2]
          · rw [S.demand v (mem_customers.2 ⟨hvN, h1, h2⟩)]
            exact hP.demand v (by rw [← S.userNodes]; exact hvN)
      · intro v hv
        have hvN : v ∈ N.nodes := by rw [← S.nodes]; exact hsub.nodes v hv
        rw [hsub.collect, S.same.collect, hcol v hvN]
        exact (hP.collect hd v (by rw [← S.userNodes]; exact hvN)).1
    have hsource : q.G.collect .source = 0 := by
      rw [hsub.collect, S.same.collect, hcol _ S.wf.source_mem]
      exact (hP.collect hd _ (by rw [← S.userNodes]; exact S.wf.source_mem)).2.1 (Or.inl rfl)
    have hsink : q.G.collect .sink = 0 := by
      rw [hsub.collect, S.same.collect, hcol _ S.wf.sink_mem]
      exact (hP.collect hd _ (by rw [← S.userNodes]; exact S.wf.sink_mem)).2.1 (Or.inr rfl)
    have hg := C20_goods_of_limits hwf hform (by rw [hdc]; exact hd) (by rw [hcaps]; exact hcap)
      (by rw [hsub.demand, S.same.demand]; exact S.demandDepots.2) hsource hsink hgoods hroute hlim
    have := hg (.source :: pre) (post ++ [Node.sink]) (by simp [routeOf, hpp]) (by simp) (by simp)
    have hpre : pre.map q.G.collect = pre.map (userCollect P0.G) := List.map_congr_left (fun v hv => by
      rw [hsub.collect, S.same.collect]
      exact hcol v (by rw [S.userNodes]; exact (hmid v (by rw [hpp]; simp [hv])).2))
    have hpost : post.map q.G.demand = post.map (userDemand P0.G) := List.map_congr_left (fun v hv => by
      rw [hsub.demand, S.same.demand]
      exact S.demand v (hmidc v (by rw [hpp]; simp [hv])))
    have hd0 : q.G.demand .sink = 0 := by rw [hsub.demand, S.same.demand]; exact S.demandDepots.2
    simp only [load, List.map_append, List.map_cons, List.map_nil, List.sum_append, List.sum_cons, List.sum_nil, hd0, hsource,
      hpre, hpost] at this
    linarith
  · intro _
    have hcu : q.custom = true := by
      rcases hP.either with h | h
      · simp [Cspy.custom, htw, h]
      · simp [Cspy.custom, hdc, h]
    have := l4 hcu
    rw [hdur] at this
    have he : Spec.duration q.G (routeOf mid) = Spec.duration N (routeOf mid) := by
      unfold Spec.duration travel
      rw [hsub.time, hsub.service, S.same.time, S.same.service]
    rw [he, duration_user S hal (route_mem_nodes S.wf hrN)] at this
    exact this

/-- The initial columns stand for routes within the user's limits. -/
theorem initial_limits {P0 P' P'' : Vrp} {K : Nat} {N N3 : Net} {cw : ℚ → CWOracle} {fuel : Nat} {cols : List Column}
    (hP : VariantData P0) (S : Searched P0 P' K N N3) (U : UserData P0 P' N)
    (hinit : ∀ r ∈ P'.initialRoutes, r.Nodup ∧ ∀ mid k, r = routeOf mid →
      WithinCapacity (userCapacities P0.loadCapacity) k (mid.map (userDemand P0.G)).sum → RouteLimits P0 k mid)
    (h : P'.initialize P'.G.toNet cw fuel = .ok (some (P'', cols))) :
    Solve.Numbered cols ∧ (∀ c ∈ cols, ColumnFor N3 K (fun k r => ∃ mid, r = routeOf mid ∧ RouteLimits P0 k mid) c) ∧
      ∃ rs, P'' = { P' with initialRoutes := rs } := by
  refine initial_columns hP.oneCapacity S ?_ h
  intro rs hch r hr hal
  obtain ⟨f1, f2, f3, f4, f5, f6, f7, f8, f9, f10, f11⟩ := S.fields
  by_cases hno : P'.initialRoutes = []
  · unfold Vrp.chooseInitial Vrp.initialSolution at hch
    have hplain : P'.plain = false := by
      rcases hP.either with h | h
      · simp [Vrp.plain, f2, h]
      · simp [Vrp.plain, f4, h]
    rw [if_neg (by simp [hno]), hplain, f3, hP.pickupDelivery] at hch
    simp only [Bool.false_eq_true, if_false, Except.ok.injEq, Option.some.injEq] at hch
    subst hch
    obtain ⟨v, hv, rfl⟩ := List.mem_map.1 hr
    obtain ⟨hvn, hvs, hvt⟩ := mem_customers.1 hv
    obtain ⟨n, rfl⟩ : ∃ n, v = .cust n := by
      cases v with
      | source => exact absurd rfl hvs
      | sink => exact absurd rfl hvt
      | cust n => exact ⟨n, rfl⟩
    have hvN : Node.cust n ∈ N.customers := mem_customers.2 ⟨by rw [← S.nodes]; exact hvn, by simp, by simp⟩
    have hvu : Node.cust n ∈ P0.G.nodes := by rw [← S.userNodes, ← S.nodes]; exact hvn
    refine ⟨⟨⟨[.cust n], rfl, by simpa using hvn, hal⟩, by simp⟩, ?_⟩
    intro k hk
    refine ⟨[.cust n], rfl, ?_, ?_, ?_, ?_, ?_⟩
    · intro m _ hm
      simp only [List.length_singleton]
      omega
    · have := (load_user S (mid := [.cust n]) (by simpa using hvu)).1
      unfold routeOf at this
      rw [← this]
      exact hk
    · intro ht
      obtain ⟨hfirst, hlow⟩ := hP.source ht
      obtain ⟨w1, w2, w3⟩ := S.windows ht hfirst
      refine short_onTime S U w3 (S.serviceDepots hP.service.1 hP.service.2).1 (fun v hv hs h0 => ?_) (fun v hv => ?_)
        (by simp) (by simpa using hvN) hal
      · exact hP.windows ht v hv (by rw [hs]; simp) (fun _ => h0)
      · obtain ⟨a, b, c⟩ := mem_customers.1 hv
        exact hP.windows ht v (by rw [← S.userNodes]; exact a) b (fun h => absurd h c)
    · intro hd pre post hpp hne
      have hl := (load_user S (mid := [.cust n]) (by simpa using hvu)).1
      unfold routeOf at hl
      obtain ⟨c, hc, hle⟩ := hk hne
      refine ⟨c, hc, ?_⟩
      have hload : userDemand P0.G (.cust n) ≤ c := by
        have h1 := hl ▸ hle
        simpa using h1
      cases pre with
      | nil =>
        simp only [List.nil_append] at hpp
        rw [← hpp]
        simpa using hload
      | cons x pre =>
        simp only [List.cons_append, List.cons.injEq, List.nil_eq, List.append_eq_nil_iff] at hpp
        obtain ⟨rfl, rfl, rfl⟩ := hpp
        simpa using (hP.collect hd _ hvu).2.2 c (List.mem_of_getElem? hc)
    · intro hfit
      exact hfit n hvu
  · unfold Vrp.chooseInitial at hch
    rw [if_pos hno] at hch
    split at hch
    · cases hch
    · rename_i hck
      simp only [Except.ok.injEq, Option.some.injEq] at hch
      subst hch
      obtain ⟨hgood, _⟩ := (C38_accepts_exactly _ _).1 hck
      obtain ⟨h1, h2, h3⟩ := hgood r hr
      have hroute := route_of_walk S.wfSearch h1 h2 h3
      obtain ⟨mid, rfl, hmid, _⟩ := id hroute
      refine ⟨⟨hroute, (hinit _ hr).1⟩, ?_⟩
      intro k hk
      refine ⟨mid, rfl, (hinit _ hr).2 mid k rfl ?_⟩
      rw [← (load_user S (fun v hv => ⟨(hmid v hv).1, by rw [← S.userNodes, ← S.nodes]; exact (hmid v hv).2⟩)).1]
      exact hk

/-- With pricing by cspy, pricing yields columns within the limits. -/
theorem price_variant {w : World} {a : SolveArgs} {P0 P' : Vrp} {K : Nat} {N N3 : Net} (hw : WorldOk w)
    (hP : VariantData P0) (S : Searched P0 P' K N N3) (U : UserData P0 P' N) (hcspy : a.cspy = true)
    (rs : List (List Node)) (d : Duals) :
    Solve.PriceOk (({ P' with initialRoutes := rs } : Vrp).solveCfg a w.falsy) w.toEnv d
      (ColumnFor N3 K (fun k r => ∃ mid, r = routeOf mid ∧ RouteLimits P0 k mid)) := by
  obtain ⟨f1, f2, f3, f4, f5, f6, f7, f8, f9, f10, f11⟩ := S.fields
  have hN3 : P'.G.toNet = N3 := by rw [S.graph]; rfl
  have hK : (({ P' with initialRoutes := rs } : Vrp).solveCfg a w.falsy).K = K := by
    show P'.vehicleTypes.getD 0 = K
    rw [S.types]
    rfl
  have hMG : (({ P' with initialRoutes := rs } : Vrp).solveCfg a w.falsy).M.G = N3 := hN3
  rw [← hK, ← hMG]
  refine price_cspy hcspy ?_ (by rw [hMG]; exact S.wfSearch) (by rw [hMG, S.same.demand]; exact S.demandDepots.1)
    (by rw [hMG, S.same.service]; exact (S.serviceDepots hP.service.1 hP.service.2).2) hw.cspy hw.paths ?_
  · rcases hP.either with h | h
    · simp [Solve.usesGreedy, Vrp.solveCfg, f2, h]
    · simp [Solve.usesGreedy, Vrp.solveCfg, f4, h]
  · intro q m r hsub hwf hcaps hst hdur htw hdc hform hlim hroute hnd
    rw [hMG] at hsub
    obtain ⟨mid, rfl, _, _⟩ := id hroute
    refine ⟨mid, rfl, limits_user hP S U hsub hwf (hcaps.trans S.caps) hst (hdur.trans ?_) (htw.trans f2) (hdc.trans f4)
      hform hlim hroute⟩
    show P'.duration.limit = P0.duration.limit
    rw [f11]

/-- What a first call of `solve()` with pricing by cspy returns, for problems with time windows or with distribution and
collection. -/
theorem plan_variant {w : World} {a : SolveArgs} {fuel : Nat} {P0 : Vrp} {o o' : Obj} (hw : WorldOk w)
    (hP : WindowedOrCollecting P0) (hpre : a.preassignments = []) (hdive : a.dive = false) (hheur : a.heuristicOnly = false)
    (hcspy : a.cspy = true)
    (hinit : ∀ r ∈ a.initialRoutes, r.Nodup ∧ ∀ mid k, r = routeOf mid →
      WithinCapacity (userCapacities P0.loadCapacity) k (mid.map (userDemand P0.G)).sum → RouteLimits P0 k mid)
    (hc : Obj.create P0 = .ok o) (h : o.solve w a fuel = .ok (some o')) :
    ∃ K N, (P0.mixedFleet = false → K = 1) ∧ o'.P.H = some N ∧ SolvesVariant P0 K o'.solution ∧
      (P0.minimizeGlobalSpan = false → bestValue N false P0.dropPenalty o'.solution =
        .ok ((userCosts P0 o'.solution).sum + P0.dropPenalty * o'.solution.dropped.length)) ∧
      (P0.minimizeGlobalSpan = true → o'.solution.routes ≠ [] → ∃ m, IsLargest m (userCosts P0 o'.solution) ∧
        bestValue N true P0.dropPenalty o'.solution = .ok (m + P0.dropPenalty * o'.solution.dropped.length)) := by
  unfold Obj.solve at h
  split at h
  · cases h
  rename_i P' hstart
  rw [hheur] at h
  simp only [Bool.false_eq_true, if_false] at h
  obtain ⟨K, N, N3, S⟩ := searched (w := w) hP.wf hP.customer hP.costs hP.demand hpre hc hstart
  have U := userData (w := w) hP.wf hP.demand hpre hc hstart S.reports
  have hold : o.solution.dropped = [] := by
    obtain ⟨G, _, rfl⟩ := create_ok hc
    rfl
  have hi := startSolve_initial hc hstart
  refine ⟨K, N, S.typesOne, plan_of_columns hP.customer hP.periodic S hw.master hw.path
    (fun P'' cols h1 => initial_limits hP.toVariantData S U (by rw [hi]; exact hinit) h1) hdive (fun _ => hold)
    (fun rs _ d _ _ _ _ _ => price_variant hw hP.toVariantData S U hcspy rs d) h⟩

/-- **C60 (partial).** Let a problem with time windows (possibly also with distribution and collection) be handed to the
constructor and `solve()` be called with cspy, any pricing strategy, any limits on iterations and time, possibly with
initial routes (without repeated nodes and within the limits), and let it return, however the solvers behave within
their contracts.  Then the reported routes form a plan for the user's problem, every route reaches every node before it
closes, and `best_value` is what the routes cost plus penalties.  For pricing by LP see
`C60_lp_partial`, for diving `C53_dive_variants_partial`, for preassigned routes C68.  For periodic problems see `C60_periodic_partial`.
That Source is the first node of the graph is needed (`C60_order_counterexample`). -/
theorem C60_time_windows_partial {w : World} {a : SolveArgs} {fuel : Nat} {P0 : Vrp} {o o' : Obj} (hw : WorldOk w)
    (hP : WindowedOrCollecting P0) (htw : P0.timeWindows = true) (hpre : a.preassignments = []) (hdive : a.dive = false)
    (hheur : a.heuristicOnly = false) (hcspy : a.cspy = true)
    (hinit : ∀ r ∈ a.initialRoutes, r.Nodup ∧ ∀ mid k, r = routeOf mid →
      WithinCapacity (userCapacities P0.loadCapacity) k (mid.map (userDemand P0.G)).sum → RouteLimits P0 k mid)
    (hc : Obj.create P0 = .ok o) (h : o.solve w a fuel = .ok (some o')) :
    ∃ K N, (P0.mixedFleet = false → K = 1) ∧ o'.P.H = some N ∧ SolvesVariant P0 K o'.solution ∧
      (∀ i r, (i, r) ∈ o'.solution.routes → UserOnTime P0.G r) ∧
      (P0.minimizeGlobalSpan = false → bestValue N false P0.dropPenalty o'.solution =
        .ok ((userCosts P0 o'.solution).sum + P0.dropPenalty * o'.solution.dropped.length)) ∧
      (P0.minimizeGlobalSpan = true → o'.solution.routes ≠ [] → ∃ m, IsLargest m (userCosts P0 o'.solution) ∧
        bestValue N true P0.dropPenalty o'.solution = .ok (m + P0.dropPenalty * o'.solution.dropped.length)) := by
  obtain ⟨K, N, h1, h2, h3, h4⟩ := plan_variant hw hP hpre hdive hheur hcspy hinit hc h
  refine ⟨K, N, h1, h2, h3, ?_, h4⟩
  intro i r hir
  obtain ⟨_, _, _, _, _, k, _, _, mid, rfl, hl⟩ := h3.routes i r hir
  exact hl.windows htw

/-- **C61 (partial).** Let a problem with distribution and collection (possibly also with time windows) be handed to the
constructor and `solve()` be called with cspy, any pricing strategy, any limits on iterations and time, possibly with
initial routes (without repeated nodes and within the limits), and let it return, however the solvers behave within
their contracts.  Then the reported routes form a plan for the user's problem, and on no leg of a route does the vehicle
carry more than its capacity (goods already collected and still to be delivered).  For pricing by
LP see `C61_lp_partial`, for diving `C53_dive_variants_partial`, for preassigned routes C68.  What is missing: periodic
problems.  That a single customer's collected goods fit into the vehicles is needed (`C61_collect_counterexample`). -/
theorem C61_collection_partial {w : World} {a : SolveArgs} {fuel : Nat} {P0 : Vrp} {o o' : Obj} (hw : WorldOk w)
    (hP : WindowedOrCollecting P0) (hdc : P0.distributionCollection = true) (hpre : a.preassignments = [])
    (hdive : a.dive = false) (hheur : a.heuristicOnly = false) (hcspy : a.cspy = true)
    (hinit : ∀ r ∈ a.initialRoutes, r.Nodup ∧ ∀ mid k, r = routeOf mid →
      WithinCapacity (userCapacities P0.loadCapacity) k (mid.map (userDemand P0.G)).sum → RouteLimits P0 k mid)
    (hc : Obj.create P0 = .ok o) (h : o.solve w a fuel = .ok (some o')) :
    ∃ K, (P0.mixedFleet = false → K = 1) ∧ SolvesVariant P0 K o'.solution ∧
      ∀ i r pre post, (i, r) ∈ o'.solution.routes → r = routeOf (pre ++ post) →
        ∃ k, dget o'.solution.types i = some k ∧ WithinCapacity (userCapacities P0.loadCapacity) k
          ((pre.map (userCollect P0.G)).sum + (post.map (userDemand P0.G)).sum) := by
  obtain ⟨K, N, h1, h2, h3, h4⟩ := plan_variant hw hP hpre hdive hheur hcspy hinit hc h
  refine ⟨K, h1, h3, ?_⟩
  intro i r pre post hir hr
  obtain ⟨_, _, _, _, _, k, _, hk, mid, rfl, hl⟩ := h3.routes i r hir
  refine ⟨k, hk, hl.goods hdc pre post ?_⟩
  simp only [routeOf, List.cons.injEq, true_and] at hr
  exact List.append_cancel_right hr

/-- **C62 (partial).** In the situation of C60 and C61, no reported route takes longer than the duration (service times
included, waiting not), if every single customer can be visited within the duration.  For pricing by LP see
`C62_lp_partial`.  For capacitated problems see
`C62_capacitated_partial`.  Without the condition it is false
(`C62_counterexample`). -/
theorem C62_duration_partial {w : World} {a : SolveArgs} {fuel : Nat} {P0 : Vrp} {o o' : Obj} (hw : WorldOk w)
    (hP : WindowedOrCollecting P0) (hfit : RoundTripsFit P0) (hpre : a.preassignments = [])
    (hdive : a.dive = false) (hheur : a.heuristicOnly = false) (hcspy : a.cspy = true)
    (hinit : ∀ r ∈ a.initialRoutes, r.Nodup ∧ ∀ mid k, r = routeOf mid →
      WithinCapacity (userCapacities P0.loadCapacity) k (mid.map (userDemand P0.G)).sum → RouteLimits P0 k mid)
    (hc : Obj.create P0 = .ok o) (h : o.solve w a fuel = .ok (some o')) :
    ∀ i r, (i, r) ∈ o'.solution.routes → Within P0.duration.limit (userDuration P0.G r) := by
  obtain ⟨K, N, h1, h2, h3, h4⟩ := plan_variant hw hP hpre hdive hheur hcspy hinit hc h
  intro i r hir
  obtain ⟨_, _, _, _, _, k, _, _, mid, rfl, hl⟩ := h3.routes i r hir
  exact hl.duration hfit

/-! ## An example -/

/-- Two customers with time windows; goods are delivered and collected. -/
def exBoth : Vrp where
  G := {
    nodes := [.source, .cust 1, .cust 2, .sink]
    nd := fun v => match v with
      | .source => { lower := some 5, upper := some 5 }
      | .sink => { upper := some 60 }
      | .cust 1 => { demand := some 2, collect := some 1, serviceTime := some 2, lower := some 10, upper := some 30 }
      | .cust _ => { demand := some 2, collect := some 3, serviceTime := some 2, lower := some 0, upper := some 40 }
    succ := fun u => match u with
      | .source => [.cust 1, .cust 2]
      | .cust 1 => [.cust 2, .sink]
      | .cust 2 => [.sink]
      | _ => []
    ed := fun u v => {
      cost := some (.scalar (if u = .source ∨ v = .sink then 10 else 1))
      time := some 10 } }
  loadCapacity := .one (.int 5)
  timeWindows := true
  distributionCollection := true
  duration := .int 40

theorem exBoth_ok : WindowedOrCollecting exBoth where
  wf := by
    refine ⟨by decide, ?_, ?_⟩
    · intro u; simp only [exBoth]; split <;> decide
    · intro u v hv
      simp only [exBoth] at hv ⊢
      split at hv <;> simp at hv <;> (try rcases hv with rfl | rfl) <;> (try subst hv) <;> decide
  customer := ⟨1, by decide⟩
  costs := fun _ u v _ => ⟨_, Or.inl rfl⟩
  demand := by decide +kernel
  service := by decide +kernel
  either := Or.inl rfl
  source := fun _ => by decide +kernel
  windows := fun _ => by decide +kernel
  collect := fun _ => by decide +kernel
  pickupDelivery := rfl
  periodic := rfl
  oneCapacity := by decide +kernel

/-- A labelling algorithm that knows the route over both customers and minds all limits. -/
def exLabels2 (q : Cspy) : Cspy.Oracle := fun m _ =>
  if (Node.cust 1 ∈ q.G.succ .source ∧ Node.cust 2 ∈ q.G.succ (.cust 1) ∧ Node.sink ∈ q.G.succ (.cust 2)) ∧ q.custom = true ∧
      ∀ p ∈ [Node.cust 1, .cust 2, .sink].inits, m.within (q.consume {} .source p) then
    some (legSum q.weight (routeOf [.cust 1, .cust 2]), routeOf [.cust 1, .cust 2])
  else none

theorem exLabels2_sound (q : Cspy) : CspySound q (exLabels2 q) := by
  intro m e c path hp
  unfold exLabels2 at hp
  split at hp
  · rename_i h
    simp only [Option.some.injEq, Prod.mk.injEq] at hp
    obtain ⟨rfl, rfl⟩ := hp
    exact ⟨rfl, rfl, ⟨h.1.1, h.1.2.1, h.1.2.2, trivial⟩, rfl, fun _ => by decide, (withinLimits_of h.2.1).2 h.2.2⟩
  · cases hp

noncomputable def exWorld2 : World := { exWorld with cspy := fun _ => exLabels2 }

theorem exWorld2_ok : WorldOk exWorld2 := { exWorld_ok with cspy := fun _ => exLabels2_sound }

theorem exBoth_fits : RoundTripsFit exBoth := by
  have : ∀ v ∈ exBoth.G.nodes, userDuration exBoth.G (routeOf [v]) ≤ 40 := by decide +kernel
  intro n hn d hd _
  have hd' : (40 : ℚ) = d := by simpa [exBoth, PyVal.limit] using hd
  rw [← hd']
  exact this _ hn

/-- All hypotheses of C60, C61 and C62 hold for the example, and column generation finds the better route. -/
example : WorldOk exWorld2 ∧ WindowedOrCollecting exBoth ∧ RoundTripsFit exBoth ∧
    planOf exWorld2 {} 5 exBoth = .ok (some ⟨[(1, routeOf [.cust 1, .cust 2])], [(1, 0)], []⟩) := by
  refine ⟨exWorld2_ok, exBoth_ok, exBoth_fits, Solve.eq_ok_of_toOption (by decide +kernel)⟩

/-! ## Counterexamples -/

/-- One customer; going there takes 50, serving the customer 30 and the way back 30; Sink closes at 100.  The first node of the
graph is the customer. -/
def lateTrip (nodes : List Node) : Vrp where
  G := {
    nodes := nodes
    nd := fun v => match v with
      | .source => {}
      | .sink => { upper := some 100 }
      | _ => { serviceTime := some 30, upper := some 100 }
    succ := fun u => match u with
      | .source => [.cust 1]
      | .cust 1 => [.sink]
      | _ => []
    ed := fun u _ => {
      cost := some (.scalar 1)
      time := some (if u = .source then 50 else 30) } }
  timeWindows := true

/-- The exception of a call, if there is one. -/
def raised {α : Type} (x : Py α) : Option PyErr :=
  match x with
  | .error e => some e
  | .ok _ => none

theorem eq_error_of_raised {α : Type} {x : Py α} {e : PyErr} (h : raised x = some e) : x = .error e := by
  cases x with
  | error e' => exact congrArg _ (Option.some.inj h)
  | ok a => cases h

noncomputable def exWorld3 : World := { exWorld with cspy := fun _ _ _ _ => none }

theorem exWorld3_ok : WorldOk exWorld3 :=
  { exWorld_ok with cspy := fun _ _ m e c path h => by cases h }

/-- **C60**, counterexample: if the customer comes before Source in the graph, the first arc that the preprocessing looks at is
the one from the customer to Sink, and it is tested with the windows as given.  It is kept, and the only route is reported
although it is back at 110, after closing time.  With Source first, the arc is removed, and building the round trip fails with
an exception. -/
theorem C60_order_counterexample :
    WorldOk exWorld3 ∧
    planOf exWorld3 {} 5 (lateTrip [.cust 1, .source, .sink]) = .ok (some ⟨[(1, routeOf [.cust 1])], [(1, 0)], []⟩) ∧
    ¬ UserOnTime (lateTrip [.cust 1, .source, .sink]).G (routeOf [.cust 1]) ∧
    planOf exWorld3 {} 5 (lateTrip [.source, .cust 1, .sink]) = .error .keyError := by
  refine ⟨exWorld3_ok, Solve.eq_ok_of_toOption (by decide +kernel), ?_, ?_⟩
  · intro h
    have := h (.sink, 110) (by decide +kernel)
    exact absurd this (by decide +kernel)
  · exact eq_error_of_raised (by decide +kernel)

/-- One customer to deliver 1 to and to collect 10 from, with a vehicle that carries 5. -/
def bigCollect : Vrp where
  G := {
    nodes := [.source, .cust 1, .sink]
    nd := fun v => if v.isDepot then {} else { demand := some 1, collect := some 10 }
    succ := fun u => match u with
      | .source => [.cust 1]
      | .cust 1 => [.sink]
      | _ => []
    ed := fun _ _ => { cost := some (.scalar 1) } }
  loadCapacity := .one (.int 5)
  distributionCollection := true

/-- **C61**, counterexample: nothing compares the goods to collect with the capacity when the round trips are built. -/
theorem C61_collect_counterexample :
    WorldOk exWorld3 ∧ planOf exWorld3 {} 5 bigCollect = .ok (some ⟨[(1, routeOf [.cust 1])], [(1, 0)], []⟩) ∧
    ¬ WithinCapacity (userCapacities bigCollect.loadCapacity) 0 (([Node.cust 1].map (userCollect bigCollect.G)).sum) := by
  refine ⟨exWorld3_ok, Solve.eq_ok_of_toOption (by decide +kernel), ?_⟩
  intro h
  obtain ⟨c, hc, hle⟩ := h (by decide +kernel)
  have : c = 5 := by
    have h5 : (userCapacities bigCollect.loadCapacity)[0]? = some 5 := by decide +kernel
    rw [h5] at hc
    exact (Option.some.inj hc).symm
  subst this
  exact absurd hle (by decide +kernel)

/-- One customer; each way takes 10, serving 5; the duration is 20. -/
def longTrip : Vrp where
  G := {
    nodes := [.source, .cust 1, .sink]
    nd := fun v => match v with
      | .source => {}
      | .sink => { upper := some 100 }
      | _ => { serviceTime := some 5, upper := some 100 }
    succ := fun u => match u with
      | .source => [.cust 1]
      | .cust 1 => [.sink]
      | _ => []
    ed := fun _ _ => {
      cost := some (.scalar 1)
      time := some 10 } }
  timeWindows := true
  duration := .int 20

/-- **C62**, counterexample: the feasibility check does not count service times, and the round trips are not checked; the
reported route takes 25. -/
theorem C62_counterexample :
    WorldOk exWorld3 ∧ planOf exWorld3 {} 5 longTrip = .ok (some ⟨[(1, routeOf [.cust 1])], [(1, 0)], []⟩) ∧
    ¬ Within longTrip.duration.limit (userDuration longTrip.G (routeOf [.cust 1])) := by
  refine ⟨exWorld3_ok, Solve.eq_ok_of_toOption (by decide +kernel), ?_⟩
  intro h
  exact absurd (h 20 rfl (by norm_num)) (by decide +kernel)

end Vrpy
