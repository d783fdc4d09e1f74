import Verif.Model.Problem
import Mathlib.Data.List.Forall2

/-!
# Specification: feasible points in the user's and in the internal coordinates
-/

namespace Rbfopt

/-- The black box declares lower bounds not above upper bounds, and integral bounds for integer and
categorical variables. -/
def WellFormed (vars : List Var) : Prop :=
  ∀ v ∈ vars, v.lower ≤ v.upper ∧ (v.type ≠ .R → IsInt v.lower ∧ IsInt v.upper)

/-- `x` is a feasible value of variable `v`; a variable whose bounds differ by at most `eps_zero` is
fixed to its lower bound. -/
def Var.Feasible (eps : ℚ) (v : Var) (x : ℚ) : Prop :=
  if |v.lower - v.upper| ≤ eps then x = v.lower
  else v.lower ≤ x ∧ x ≤ v.upper ∧ (v.type ≠ .R → IsInt x)

/-- A feasible point of the problem in the user's coordinates. -/
def FeasibleUser (eps : ℚ) (vars : List Var) (x : Pt) : Prop :=
  List.Forall₂ (Var.Feasible eps) vars x

/-- In `q`, exactly one of the given positions holds a 1 and the others hold 0. -/
def OneHotAt (q : Pt) (pos : List ℕ) : Prop :=
  ∃ j < pos.length, pos.map (fun i => q.getD i 0) = (List.replicate pos.length 0).set j 1

/-- A feasible point of the reformulated problem: right dimension, within the bounds, integral on
the integer variables, exactly one category chosen per categorical variable. -/
structure FeasibleInternal (I : Internal) (q : Pt) : Prop where
  length : q.length = I.dim
  lower : List.Forall₂ (· ≤ ·) I.lower q
  upper : List.Forall₂ (· ≤ ·) q I.upper
  integral : ∀ i ∈ I.intVars, IsInt (q.getD i 0)
  oneHot : ∀ e ∈ I.expansion, OneHotAt q e.2.2

/-- Coordinates of a user point on the variables that are not fixed, in order. -/
def unfixedCoords (eps : ℚ) (vars : List Var) (x : Pt) : Pt :=
  ((vars.zip x).filter (fun vx => !Var.isFixed eps vx.1)).map Prod.snd

/-- The internal point of a user point (what the constructor does to user-provided points). -/
def encodePt (eps : ℚ) (vars : List Var) (x : Pt) : Pt :=
  expandPt (construct eps vars) (unfixedCoords eps vars x)

/-- The unfixed variables are the declared variables that are not fixed, in order. -/
def unfixedSpec (eps : ℚ) (vars : List Var) : List Var := vars.filter (fun v => !Var.isFixed eps v)

/-- Is a variable encoded by binaries?  Categorical variables with two values are not. -/
def Var.IsCat (v : Var) : Bool := decide (v.type = .C ∧ v.upper - v.lower ≠ 1)

/-- Position of the internal coordinate of the unfixed, non-encoded variable `i`: the number of such
variables before it. -/
def plainPos (eps : ℚ) (vars : List Var) (i : ℕ) : ℕ :=
  ((vars.take i).filter (fun v => !v.isFixed eps && !v.IsCat)).length

/-- Position of the first binary of the unfixed categorical variable `i`: after all plain variables
and after the binaries of the categorical variables before it. -/
def groupPos (eps : ℚ) (vars : List Var) (i : ℕ) : ℕ :=
  (vars.filter (fun v => !v.isFixed eps && !v.IsCat)).length +
    (((vars.take i).filter (fun v => !v.isFixed eps && v.IsCat)).map Var.numCats).sum

end Rbfopt
