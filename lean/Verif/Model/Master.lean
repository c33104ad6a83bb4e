import Verif.Model.Columns
import Verif.Model.LP
import Verif.Model.Pricing

/-!
# The master problem (`vrpy/masterproblem.py`, `vrpy/master_solve_pulp.py`)

The problem is built column by column (`LpConstraintVar`); here it is a function of the pool of columns.
-/

namespace Vrpy

/-- Variables of the master problem (`vrpy/master_solve_pulp.py:27-32`). -/
inductive MVar where
  | y (name : ColName)
  | drop (v : Node)
  | dummy (v : Node)
  | bound (k : Nat)
  | makespan
deriving DecidableEq, Repr

/-- The arguments of `_MasterSolvePulp` (`vrpy/masterproblem.py:16-36`).  `dropPenalty = 0` and `numVehicles = []` stand for
`None`. -/
structure Master where
  G : Net
  dropPenalty : ℚ := 0
  numVehicles : List Nat := []
  useAllVehicles : Bool := false
  periodic : Bool := false
  globalSpan : Bool := false

/-- The customers of a column with multiplicity, as counted by the covering constraints
(`vrpy/master_solve_pulp.py:315-318`; for the global span `:342-346`, where `path` is not used). -/
def Column.visited (globalSpan : Bool) (c : Column) : List Node :=
  (match c.path with
    | some p => if globalSpan then c.nodes else p
    | none => c.nodes).filter (fun v => v ≠ Node.source ∧ v ≠ Node.sink)

namespace Master

/-- The artificial cost `1e10` (`vrpy/master_solve_pulp.py:363`, `:393`). -/
def big : ℚ := 10000000000

/-- `self._n_columns` (`vrpy/master_solve_pulp.py:41`). -/
def nColumns : Nat := 1000

/-- Customers with a dummy variable (`vrpy/master_solve_pulp.py:386-394`). -/
def dummies (M : Master) : List Node := if M.periodic then M.G.customers.filter (fun v => M.G.freq v > 1) else []

/-- Customers with a drop variable (`vrpy/master_solve_pulp.py:136`, `:371-382`). -/
def drops (M : Master) : List Node := if M.dropPenalty = 0 then [] else M.G.customers

/-- The covering constraint of `v` (`vrpy/master_solve_pulp.py:294-309` and the coefficients of the variables `:325`,
`:380`, `:393`); it becomes an equation for the final MIP (`:174-185`). -/
def visitConstr (M : Master) (cols : List Column) (relax : Bool) (v : Node) : Constr MVar where
  lhs := cols.map (fun c => (((c.visited M.globalSpan).count v : ℚ), MVar.y c.name)) ++
    (if v ∈ M.drops then [(1, .drop v)] else []) ++ (if v ∈ M.dummies then [(1, .dummy v)] else [])
  sense := if relax then .ge else .eq
  rhs := if M.periodic then M.G.freq v else 1

/-- The fleet constraint of type `k` (`vrpy/master_solve_pulp.py:396-402`, coefficients `:326-330`, `:363`). -/
def fleetConstr (M : Master) (cols : List Column) (k n : Nat) : Constr MVar where
  lhs := (cols.filter (fun c => c.vehicleType = k)).map (fun c => ((1 : ℚ), MVar.y c.name)) ++ [(-1, .bound k)]
  sense := if M.useAllVehicles then .eq else .le
  rhs := n

/-- `makespan_i` (`vrpy/master_solve_pulp.py:352`, `:404-428`): the makespan variable occurs only in the first 74. -/
def spanConstr (cols : List Column) (i : Nat) : Constr MVar where
  lhs := (cols.filter (fun c => c.name = .num i)).map (fun c => (c.cost, MVar.y c.name)) ++
    (if i < 75 then [(-1, .makespan)] else [])
  sense := .le
  rhs := 0

/-- The objective (`vrpy/master_solve_pulp.py:331`, `:363`, `:379`, `:393`, `:411-418`). -/
def objective (M : Master) (cols : List Column) : LinExpr MVar :=
  (if M.globalSpan then [(1, MVar.makespan)] else cols.map (fun c => (c.cost, MVar.y c.name))) ++
    M.drops.map (fun v => (M.dropPenalty, MVar.drop v)) ++ M.dummies.map (fun v => (big, MVar.dummy v)) ++
    (List.range M.numVehicles.length).map (fun k => (big, MVar.bound k))

/-- `"non" in var.name` (`vrpy/master_solve_pulp.py:195`). -/
def isNon : ColName → Bool
  | .nonElem _ => true
  | _ => false

/-- The variables: continuous when relaxed (except, always, drop variables, and route variables for the global span);
for the final MIP columns that repeat customers and the artificial vehicles are fixed to 0
(`vrpy/master_solve_pulp.py:186-203`, `:319-323`, `:336-340`, `:358-362`, `:373-377`, `:388-392`, `:413-417`). -/
def varDecls (M : Master) (cols : List Column) (relax : Bool) : List (VarDecl MVar) :=
  cols.map (fun c => { var := .y c.name, lo := some 0, up := some (if !relax && isNon c.name then 0 else 1),
                       isInt := !relax || M.globalSpan }) ++
    M.drops.map (fun v => { var := .drop v, lo := some 0, up := some 1, isInt := true }) ++
    M.dummies.map (fun v => { var := .dummy v, lo := some 0, isInt := !relax }) ++
    (List.range M.numVehicles.length).map (fun k =>
      { var := .bound k, lo := some 0, up := if relax then none else some 0 }) ++
    (if M.globalSpan then [{ var := .makespan, lo := some 0 }] else [])

/-- The master problem over the pool `cols`, as passed to the solver by `_solve(relax, ...)`
(`vrpy/master_solve_pulp.py:169-285`).  Not modelled: options and time limits of the solvers. -/
def lp (M : Master) (cols : List Column) (relax : Bool) : LP MVar where
  vars := M.varDecls cols relax
  obj := M.objective cols
  constrs := M.G.customers.map (M.visitConstr cols relax) ++
    (if M.periodic then [] else M.numVehicles.mapIdx (fun k n => M.fleetConstr cols k n)) ++
    (if M.globalSpan then (List.range' 1 (nColumns - 1)).map (spanConstr cols) else [])

/-- `self.makespan_constr` has a key for this name (`vrpy/master_solve_pulp.py:352`, `:421-424`). -/
def hasSpanConstr : ColName → Bool
  | .num i => decide (1 ≤ i ∧ i < nColumns)
  | _ => false

/-- What can go wrong when a column is added (`vrpy/master_solve_pulp.py:325-329`, `:343-352`): a customer without
covering constraint, a vehicle bound without constraint, a name without makespan constraint. -/
def addColumn (M : Master) (c : Column) : Py Unit :=
  if (c.visited M.globalSpan).any (fun v => v ∉ M.G.customers) then .error .keyError
  else if M.periodic && decide (c.vehicleType < M.numVehicles.length) then .error .keyError
  else if M.globalSpan && !hasSpanConstr c.name then .error .keyError
  else .ok ()

/-- `__init__` and `_formulate` (`vrpy/master_solve_pulp.py:21-43`, `:239-285`): the errors; line 393 raises `KeyError`
for the Sink if its frequency is larger than 1, line 363 if there are bounds but no constraints. -/
def create (M : Master) (cols : List Column) : Py Unit := do
  cols.forM M.addColumn
  if M.periodic ∧ M.G.freq .sink > 1 ∧ Node.sink ∈ M.G.nodes then throw .keyError
  if M.periodic ∧ M.numVehicles ≠ [] then throw .keyError

/-- What the solver returns: the status, the values of the variables, the dual values. -/
structure Answer where
  optimal : Bool
  point : MVar → ℚ
  visitDual : Node → ℚ
  fleetDual : Nat → ℚ
  spanDual : ColName → ℚ

/-- `get_duals` (`vrpy/master_solve_pulp.py:78-122`); dual values of the span constraints are looked up by the names of the
columns. -/
def duals (M : Master) (cols : List Column) (a : Answer) : Duals where
  visit := M.G.customers.map (fun v => (v, a.visitDual v))
  fleet := if M.numVehicles ≠ [] ∧ M.periodic = false then some ((List.range M.numVehicles.length).map a.fleetDual) else none
  span := if M.globalSpan then cols.map (fun c => (c.name, a.spanDual c.name)) else []

/-- `solve` (`vrpy/master_solve_pulp.py:45-63`): the duals and the objective value; an exception if the status is not
"Optimal". -/
def solve (M : Master) (solver : LP MVar → Answer) (cols : List Column) (relax : Bool) : Py (Duals × ℚ) :=
  let a := solver (M.lp cols relax)
  if a.optimal then .ok (M.duals cols a, (M.objective cols).eval a.point) else .error .masterInfeasible

/-- The routes and dropped nodes read off a solution (`vrpy/master_solve_pulp.py:125-138`). -/
def selected (cols : List Column) (p : MVar → ℚ) : List Column := cols.filter (fun c => p (.y c.name) > 0)

/-- `dropped_nodes` (`vrpy/master_solve_pulp.py:136-138`). -/
def dropped (M : Master) (p : MVar → ℚ) : List Node := M.drops.filter (fun v => p (.drop v) > 1 / 2)

end Master

end Vrpy
