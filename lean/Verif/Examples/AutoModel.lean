import Verif.Props.AutoModel

/-!
# Concrete histories for C89
-/

namespace Rbfopt.Demo

/-- Everything automatic, Gutmann's method, at most two cross validations, dimension 2, steps 0 to 6. -/
def autoCfg : AutoCfg := ⟨none, 1/10, none, .gutmann, 1000, 2, 2, 0, 6⟩

/-- Beginning of a cycle with five nodes; the linear model has the smallest error locally, the cubic
globally. -/
def autoStart : AutoIn :=
  ⟨0, 5, [0, 1, 2000, 3000, 4000], fun m => if m.rbf = .linear then some 1 else some 5,
    fun m => if m.rbf = .cubic then some 1 else some 5, false⟩

/-- A global step in the same cycle; the linear system fails. -/
def autoMid : AutoIn := ⟨3, 6, [0, 1, 2000, 3000, 4000, 7], fun _ => none, fun _ => none, true⟩

/-- A local step. -/
def autoLoc : AutoIn := ⟨6, 6, [0, 1, 2000, 3000, 4000, 7], fun _ => none, fun _ => none, false⟩

/-- The beginning of a later cycle, where the errors cannot be computed. -/
def autoAgain : AutoIn := ⟨0, 7, [0, 1, 2, 3, 4000, 7, 9], fun _ => none, fun _ => none, false⟩

def autoHist : List AutoEvent := [.serialPass autoStart, .serialPass autoMid, .serialPass autoLoc]

def autoHist2 : List AutoEvent := autoHist ++ [.serialPass autoAgain]

-- premises of C89_auto_rbf, C89_selections, C89_algorithm, C89_auto_scaling_serial
example : ((autoRun autoCfg (autoInit autoCfg) autoHist).map (fun s =>
    (decide (s.vol = ⟨⟨.linear, 1/10⟩, .log, .gutmann⟩),
      decide (s.localList = [some ⟨.linear, 1/10⟩]), decide (s.globalList = [none]))))
    = some (true, true, true) := by decide +kernel

example : ∀ e ∈ autoHist2, ∃ i, e = .serialPass i ∧ i.vals ≠ [] := by
  intro e he
  simp [autoHist2, autoHist] at he
  rcases he with rfl | rfl | rfl | rfl
  all_goals exact ⟨_, rfl, by simp [autoStart, autoMid, autoLoc, autoAgain]⟩

example : LastCycleStart autoCfg autoHist autoStart :=
  ⟨[], _, _, rfl, rfl, by decide, by
    intro e he j hj
    simp at he
    rcases he with rfl | rfl <;> cases hj <;> decide⟩

example : WideSpread autoCfg.threshold autoStart.vals := ⟨0, by decide, by decide +kernel, by decide +kernel⟩

example : ¬ WideSpread autoCfg.threshold autoAgain.vals := by
  rw [wideSpread_iff (by decide)]
  decide +kernel

-- premises of C89_last_selection and C89_frozen: the second selection is the last one
example : Selecting autoCfg (.serialPass autoAgain) = true := by decide +kernel

example : ((autoRun autoCfg (autoInit autoCfg) autoHist2).map (fun s =>
    (decide (s.localList.length = autoCfg.maxCV), decide (s.bestLocal = ⟨.linear, 1/10⟩),
      decide (s.vol.scaling = .off)))) = some (true, true, true) := by decide +kernel

-- premises of C89_user_rbf and C89_user_scaling
example : ((autoRun { autoCfg with rbf := some .multiquadric, scaling := some .affine }
    (autoInit { autoCfg with rbf := some .multiquadric, scaling := some .affine }) autoHist2).map (fun s =>
      decide (s.vol = ⟨⟨.multiquadric, 1/10⟩, .affine, .gutmann⟩))) = some true := by decide +kernel

-- premises of C89_auto_scaling_parallel
example : (autoRun autoCfg (autoInit autoCfg)
    ([.parallelCall, .parallelPass true autoStart] ++ .parallelCall :: [.parallelPass true autoMid])).isSome
    = true := by decide +kernel

end Rbfopt.Demo
