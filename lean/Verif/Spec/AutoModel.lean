import Verif.Model.AutoModel

/-!
# Vocabulary for C89: which model, scaling and algorithm should be in use
-/

namespace Rbfopt

/-- The pass read by an event. -/
def AutoEvent.input : AutoEvent → Option AutoIn
  | .serialPass i => some i
  | .parallelPass _ i => some i
  | .parallelCall => none

/-- At most half of the values (rounded down) are within `thr` of the smallest one. -/
def WideSpread (thr : ℚ) (vals : List ℚ) : Prop :=
  ∃ m ∈ vals, (∀ v ∈ vals, m ≤ v) ∧ vals.countP (fun v => decide (v ≤ m + thr)) ≤ vals.length / 2

/-- `i` is the last pass of the history that is at the beginning of a cycle. -/
def LastCycleStart (c : AutoCfg) (es : List AutoEvent) (i : AutoIn) : Prop :=
  ∃ pre e post, es = pre ++ e :: post ∧ e.input = some i ∧ i.step ≤ c.firstStep ∧
    ∀ e' ∈ post, ∀ j, e'.input = some j → c.firstStep < j.step

/-- A pass in which the RBF model may be selected: beginning of a cycle, enough nodes. -/
def Selecting (c : AutoCfg) (e : AutoEvent) : Bool :=
  match e.input with
  | some i => decide (i.step ≤ c.firstStep) && decide (c.n + 2 < i.k)
  | none => false

end Rbfopt
