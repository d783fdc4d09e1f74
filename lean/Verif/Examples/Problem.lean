import Verif.Props.Problem

namespace Rbfopt

/-! ## Non-vacuity: a problem with every kind of variable -/

namespace DemoProblem

/-- A real variable, a fixed one, a ternary categorical one, an integer one, a binary categorical
one, and a second categorical one with four values. -/
def vars : List Var :=
  [⟨-1, 1, .R⟩, ⟨7, 7, .I⟩, ⟨2, 4, .C⟩, ⟨0, 9, .I⟩, ⟨0, 1, .C⟩, ⟨-1, 2, .C⟩]

instance (x : ℚ) : Decidable (IsInt x) :=
  decidable_of_iff (x.den = 1) ⟨fun h => ⟨x.num, (Rat.den_eq_one_iff x).mp h |>.symm⟩,
    fun ⟨z, hz⟩ => by rw [hz]; rfl⟩

instance (vars : List Var) : Decidable (WellFormed vars) := by
  unfold WellFormed; infer_instance

instance (eps : ℚ) (v : Var) (x : ℚ) : Decidable (v.Feasible eps x) := by
  unfold Var.Feasible; infer_instance

theorem wf : WellFormed vars := by decide +kernel

def x : Pt := [1/2, 7, 3, 5, 1, 0]

theorem feasible : FeasibleUser (1/1000000) vars x := by
  unfold FeasibleUser vars x
  refine List.Forall₂.cons ?_ (List.Forall₂.cons ?_ (List.Forall₂.cons ?_ (List.Forall₂.cons ?_
    (List.Forall₂.cons ?_ (List.Forall₂.cons ?_ List.Forall₂.nil))))) <;> decide +kernel

/-- The internal point has ten coordinates: three plain ones, three and four binaries. -/
example : encodePt (1/1000000) vars x = [1/2, 5, 1, 0, 1, 0, 0, 1, 0, 0] := by decide +kernel

example : decodePt (construct (1/1000000) vars) [1/2, 5, 1, 0, 1, 0, 0, 1, 0, 0] = x := by
  decide +kernel

/-- The hypotheses of C28, C29 and C30 hold for it. -/
example : FeasibleInternal (construct (1/1000000) vars) (encodePt (1/1000000) vars x) :=
  ((C30_bijection wf).1 x feasible).1

/-- The returned point lacks the fixed coordinate. -/
example : returnedPt (construct (1/1000000) vars) (encodePt (1/1000000) vars x) =
    [1/2, 3, 5, 1, 0] := by decide +kernel

example : compressIntVars (construct (1/1000000) vars) (construct (1/1000000) vars).intVars =
    [1, 2, 3, 4] := by decide +kernel

/-- A pure integer problem (24 points) and one with a ternary variable (3 points, limit 8). -/
example : searchSpaceSize (construct (1/1000000) [⟨0, 3, .I⟩, ⟨2, 7, .I⟩]) = ((24 : ℚ) : EVal) := by
  decide +kernel
example : searchSpaceSize (construct (1/1000000) [⟨0, 2, .C⟩]) = ((8 : ℚ) : EVal) := by
  decide +kernel

end DemoProblem

end Rbfopt
