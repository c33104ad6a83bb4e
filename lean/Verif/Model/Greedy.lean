import Verif.Model.Basic
import Mathlib.Data.List.Sort

/-!
# `vrpy/greedy.py`
-/

namespace Vrpy

/-- The arguments of `_Greedy` (`vrpy/greedy.py:16-30`); `cap` is `load_capacity[0]`. -/
structure GreedyConfig where
  cap : Option ℚ := none
  numStops : Option Nat := none
  duration : Option ℚ := none

/-- The mutable attributes of `_Greedy` (`vrpy/greedy.py:19-32,45-47,59`); `path = none` is `_current_path = None`. -/
structure GreedyState where
  routes : List (List Node) := []
  unprocessed : List Node
  value : ℚ := 0
  load : ℚ := 0
  stops : Nat := 0
  time : ℚ := 0
  path : Option (List Node) := none
  newNode : Node := .source

/-- `1e10` (`vrpy/greedy.py:111`). -/
def greedyPenalty : ℚ := 10000000000

/-- `_check_capacity` behind `self.load_capacity and` (`vrpy/greedy.py:84,123-125`). -/
def greedyCapacityOk (G : Net) (cfg : GreedyConfig) (s : GreedyState) (v : Node) : Bool :=
  match active cfg.cap with
  | some c => s.load + G.demand v ≤ c
  | none => true

/-- `_check_duration` behind `self.duration and` (`vrpy/greedy.py:86,127-137`); `u` is `_current_path[-1]`. -/
def greedyDurationOk (G : Net) (cfg : GreedyConfig) (s : GreedyState) (u v : Node) : Py Bool :=
  match active cfg.duration with
  | some d =>
    match (if v ≠ .sink then G.edgeTime v .sink else .ok 0) with
    | .error e => .error e
    | .ok ret =>
      match G.edgeTime u v with
      | .error e => .error e
      | .ok t => .ok (decide (s.time + G.service v + t + ret ≤ d))
  | none => .ok true

/-- `_constraints_met` (`vrpy/greedy.py:80-89`, `:119-121`); `p` is the current path, `u` its last node. -/
def greedyConstraintsMet (G : Net) (cfg : GreedyConfig) (s : GreedyState) (p : List Node) (u v : Node) : Py Bool :=
  if v ∈ p ∨ (u = .source ∧ v = .sink) then .ok false
  else if !greedyCapacityOk G cfg s v then .ok false
  else greedyDurationOk G cfg s u v

/-- The dictionary `out_going_costs` of `_get_next_node` (`vrpy/greedy.py:68-72`), in insertion order. -/
def greedyCandidates (G : Net) (cfg : GreedyConfig) (s : GreedyState) (p : List Node) (u : Node) :
    Py (List (Node × ℚ)) :=
  (G.succ u).foldlM (fun acc v =>
    match greedyConstraintsMet G cfg s p u v with
    | .error e => .error e
    | .ok met =>
      if met ∧ v ∈ s.unprocessed then
        match G.edgeCost u v 0 with
        | .error e => .error e
        | .ok c => .ok (acc ++ [(v, c)])
      else .ok acc) []

/-- `_get_next_node` (`vrpy/greedy.py:66-78`); `None[-1]` raises `TypeError`.  `sorted(...)[0]` with a stable sort. -/
def greedyNext (G : Net) (cfg : GreedyConfig) (s : GreedyState) : Py GreedyState :=
  match s.path with
  | none => .error .typeError
  | some p =>
    match p.getLast? with
    | none => .error .indexError
    | some u =>
      match greedyCandidates G cfg s p u with
      | .error e => .error e
      | .ok cands =>
        match cands.insertionSort (fun a b => a.2 ≤ b.2) with
        | [] => .ok { s with newNode := .sink }
        | (v, _) :: _ => .ok { s with newNode := v }

/-- `_update` (`vrpy/greedy.py:91-112`). -/
def greedyUpdate (G : Net) (cfg : GreedyConfig) (s : GreedyState) : Py GreedyState :=
  match s.path with
  | none => .error .typeError
  | some p =>
    match p.getLast? with
    | none => .error .indexError
    | some u =>
      let v := s.newNode
      if v.isDepot = false ∧ v ∉ s.unprocessed then .error .valueError else
      match G.edgeCost u v 0, G.edgeTime u v with
      | .error e, _ => .error e
      | _, .error e => .error e
      | .ok c, .ok t =>
        let s' : GreedyState := { s with
          load := s.load + G.demand v
          path := some (p ++ [v])
          unprocessed := if v.isDepot then s.unprocessed else s.unprocessed.erase v
          stops := s.stops + 1
          value := s.value + c
          time := s.time + (t + G.service v) }
        if cfg.numStops = some s'.stops ∧ v ≠ .sink then
          if v ∈ G.preds .sink then
            match G.edgeCost v .sink 0 with
            | .error e => .error e
            | .ok c' => .ok { s' with path := some (p ++ [v] ++ [.sink]), value := s'.value + c', newNode := .sink }
          else .ok { s' with value := s'.value + greedyPenalty, path := none }
        else .ok s'

/-- The loop of `_run_forward` (`vrpy/greedy.py:60-64`).  `fuel` bounds the number of passes; `ok none` means that the
loop was still running when the fuel was used up (theorem `C11_greedy_terminates`: this never happens for large fuel). -/
def greedyForward (G : Net) (cfg : GreedyConfig) : Nat → GreedyState → Py (Option GreedyState)
  | 0, _ => .ok none
  | fuel + 1, s =>
    match greedyNext G cfg s with
    | .error e => .error e
    | .ok s1 =>
      match greedyUpdate G cfg s1 with
      | .error e => .error e
      | .ok s2 => if s2.newNode = .sink then .ok (some s2) else greedyForward G cfg fuel s2

/-- `_update_routes` (`vrpy/greedy.py:114-117`). -/
def greedyStore (s : GreedyState) : GreedyState :=
  match s.path with
  | some p => { s with routes := s.routes ++ [p] }
  | none => s

/-- `run` (`vrpy/greedy.py:42-51`) and `_run_forward`'s initialisation (line 59). -/
def greedyLoop (G : Net) (cfg : GreedyConfig) (fwd : Nat) : Nat → GreedyState → Py (Option GreedyState)
  | 0, _ => .ok none
  | fuel + 1, s =>
    if s.unprocessed = [] then .ok (some s) else
    match greedyForward G cfg fwd { s with load := 0, stops := 0, time := 0, path := some [.source] } with
    | .error e => .error e
    | .ok none => .ok none
    | .ok (some s1) =>
      let s2 := greedyStore s1
      if s2.path = some [.source, .sink] then .ok (some s2) else greedyLoop G cfg fwd fuel s2

/-- `_Greedy(G, ...).run()`: value and routes (`vrpy/greedy.py:16-51`); `none`: still running after `fuel` passes of one
of the loops. -/
def greedyRun (G : Net) (cfg : GreedyConfig) (fuel : Nat) : Py (Option (ℚ × List (List Node))) :=
  match greedyLoop G cfg fuel fuel { unprocessed := G.customers } with
  | .error e => .error e
  | .ok none => .ok none
  | .ok (some s) => .ok (some (s.value, s.routes))

end Vrpy
