import Verif.Model.Basic

/-!
# Linear programs with integer variables, as built with PuLP

The solvers (CBC, CPLEX, Gurobi) are not modelled: theorems speak about every feasible, or every optimal, point.
-/

namespace Vrpy

/-- `pulp.LpConstraintLE`, `LpConstraintGE`, `LpConstraintEQ`. -/
inductive Sense where
  | le
  | ge
  | eq
deriving DecidableEq, Repr

/-- A linear expression (`pulp.LpAffineExpression` without constant): coefficients and variables.  A variable may occur
several times; PuLP adds the coefficients up, which does not change the value. -/
abbrev LinExpr (V : Type) := List (ℚ × V)

/-- The value of a linear expression. -/
def LinExpr.eval {V : Type} (e : LinExpr V) (x : V → ℚ) : ℚ := (e.map (fun t => t.1 * x t.2)).sum

/-- `pulp.lpSum(vars)`. -/
def lpSum {V : Type} (vs : List V) : LinExpr V := vs.map (fun v => (1, v))

/-- `- e`. -/
def LinExpr.neg {V : Type} (e : LinExpr V) : LinExpr V := e.map (fun t => (-t.1, t.2))

/-- A constraint (`pulp.LpConstraint`), constants collected on the right hand side. -/
structure Constr (V : Type) where
  lhs : LinExpr V
  sense : Sense
  rhs : ℚ
deriving DecidableEq

/-- The point satisfies the constraint. -/
def Constr.Holds {V : Type} (c : Constr V) (x : V → ℚ) : Prop :=
  match c.sense with
  | .le => c.lhs.eval x ≤ c.rhs
  | .ge => c.rhs ≤ c.lhs.eval x
  | .eq => c.lhs.eval x = c.rhs

/-- A variable (`pulp.LpVariable`): bounds and category. -/
structure VarDecl (V : Type) where
  var : V
  lo : Option ℚ := none
  up : Option ℚ := none
  isInt : Bool := false
deriving DecidableEq

/-- The point respects bounds and category of the variable. -/
def VarDecl.Holds {V : Type} (d : VarDecl V) (x : V → ℚ) : Prop :=
  (∀ a, d.lo = some a → a ≤ x d.var) ∧ (∀ b, d.up = some b → x d.var ≤ b) ∧
    (d.isInt = true → ∃ z : Int, x d.var = z)

/-- A minimisation problem (`pulp.LpProblem`). -/
structure LP (V : Type) where
  vars : List (VarDecl V)
  obj : LinExpr V
  constrs : List (Constr V)
deriving DecidableEq

/-- A feasible point. -/
structure LP.Feasible {V : Type} (p : LP V) (x : V → ℚ) : Prop where
  vars : ∀ d ∈ p.vars, d.Holds x
  constrs : ∀ c ∈ p.constrs, c.Holds x

/-- An optimal point. -/
structure LP.Optimal {V : Type} (p : LP V) (x : V → ℚ) : Prop where
  feasible : p.Feasible x
  best : ∀ x', p.Feasible x' → p.obj.eval x ≤ p.obj.eval x'

end Vrpy
