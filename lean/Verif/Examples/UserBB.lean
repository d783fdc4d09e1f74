import Verif.Props.UserBB
import Verif.Props.Enlarged
import Verif.Examples.Steps

/-!
# The hypotheses of C81 - C83 are met
-/

namespace Rbfopt.StepDemo

/-- The problem of the run of `Examples.Steps`, given through the wrapper. -/
def wrapped : Except PyErr UserBB :=
  newUserBB 2 [0, 0] [10, 2] [.R, .C] (fun _ x => (x.headD 0 - 3)^2 + x.getD 1 0) none

def theBB : UserBB :=
  ⟨2, [0, 0], [10, 2], [.R, .C], fun _ x => (x.headD 0 - 3)^2 + x.getD 1 0, none⟩

theorem wrapped_ok : newUserBB 2 [0, 0] [10, 2] [.R, .C]
    (fun _ x => (x.headD 0 - 3)^2 + x.getD 1 0) none = .ok theBB := rfl

theorem theBB_vars : theBB.vars = vars := rfl

/-- The engine uses the wrapper. -/
theorem uses_bb : UsesBB P env theBB := by
  refine ⟨rfl, fun before x v h => ?_, fun before x r h => ?_⟩
  · unfold UserBB.evaluate at h
    split at h
    · cases h
    · cases h; rfl
  · unfold UserBB.evaluateNoisy at h
    split at h <;> cases h

/-- `C81_whole_run` applies to all states of this run (which makes 14 calls, see `run_calls`). -/
example {c : Ctl} {s : Alg ℕ} (h : Reach P env 0 c s) :
    ∀ (k : ℕ) (call : Call), s.log[k]? = some call → theBB.Answers (s.log.take k) call :=
  C81_whole_run (C := initCfg) wrapped_ok uses_bb vars_wf runs_on (.inl rfl)
    (by change 0 < J.dim; rw [J_eq]; decide) steps_ok samples_ok
    (fun p => by
      show dist1n p p = 0
      unfold dist1n
      induction p with
      | nil => rfl
      | cons a p ih => simp)
    (.inl rfl) (by intro p hp; cases hp) h

/-- A wrong length is refused by the constructor, and by both functions. -/
example : newUserBB 2 [0] [10, 2] [.R, .C] (fun _ _ => 0) none = .error .assertionError ∧
    theBB.evaluate [] [1] = .error .assertionError ∧
    theBB.evaluateNoisy [] [1] = .error .assertionError ∧
    theBB.evaluateNoisy [] [1, 0] = .error .notImplementedError := ⟨rfl, rfl, rfl, rfl⟩

/-- `C82`: value 10, relative error 1/10 and absolute error 1/2. -/
example : testNoisy 10 (-1/10) (1/2) = (19/2, -1/2, 1/2) ∧ |(-1/10 : ℚ)| ≤ 1/10 ∧ |(1/2 : ℚ)| ≤ 1/2 := by
  decide +kernel

/-- A test function with an integer, a real and a categorical variable. -/
noncomputable def testFn : TestFn 3 :=
  { lower := ![0, -2, 1]
    upper := ![4, 6, 3]
    type := ![.I, .R, .C]
    opt := ![0, 1, 2]
    optValue := -5
    eval := fun y => ((y 0 : ℚ) : ℝ) + |((y 1 - 1 : ℚ) : ℝ)| + |((y 2 - 2 : ℚ) : ℝ)| - 5 }

theorem testFn_ok : testFn.Consistent := by
  refine ⟨fun i => ?_, fun i => ?_, fun i => ?_, fun i => ?_, ?_⟩
  · fin_cases i <;> simp [testFn] <;> norm_num
  · fin_cases i
    · intro _; exact ⟨⟨0, by simp [testFn]⟩, ⟨4, by simp [testFn]⟩⟩
    · intro h; exact absurd rfl h
    · intro _; exact ⟨⟨1, by simp [testFn]⟩, ⟨3, by simp [testFn]⟩⟩
  · fin_cases i <;> simp [testFn]
  · fin_cases i
    · exact ⟨by simp [testFn], by simp [testFn], fun _ => ⟨0, by simp [testFn]⟩⟩
    · exact ⟨by simp [testFn]; norm_num, by simp [testFn], fun h => absurd rfl h⟩
    · exact ⟨by simp [testFn], by simp [testFn]; norm_num, fun _ => ⟨2, by simp [testFn]⟩⟩
  · simp [testFn]

theorem testFn_min (y : Fin 3 → ℚ) (hy : InTyped testFn.lower testFn.upper testFn.type y) :
    testFn.optValue ≤ testFn.eval y := by
  have h0 : (0 : ℚ) ≤ y 0 := (hy 0).1
  have h0' : (0 : ℝ) ≤ ((y 0 : ℚ) : ℝ) := by exact_mod_cast h0
  have h1 := abs_nonneg (((y 1 - 1 : ℚ) : ℝ))
  have h2 := abs_nonneg (((y 2 - 2 : ℚ) : ℝ))
  simp only [testFn]
  linarith

/-- Two copies, a permutation that is not the identity, groups that mix the variables. -/
def draw : Draw 3 2 :=
  { perm := (Equiv.swap 0 4).trans (Equiv.swap 1 5)
    coupling := fun i k => ⟨(3 * k + 2 * i + 1) % 6, Nat.mod_lt _ (by norm_num)⟩
    weights := ![3, 9] }

theorem draw_ok : draw.Valid := ⟨by norm_num, fun c => by fin_cases c <;> simp [draw]⟩

/-- `C83`: the enlarged function has its optimum at the permuted point. -/
example : EnlargedEval testFn draw (enlarge draw testFn.opt) (.ok (-5)) ∧
    (List.finRange 6).map (fun i => (draw.orig i : ℕ)) = [1, 2, 2, 0, 0, 1] :=
  ⟨C83_optimum_value testFn_ok draw_ok, by decide +kernel⟩

example := C83_optimum_minimal testFn_ok draw_ok testFn_min

/-- `C83` (violation): a categorical variable with values -1, 0, 1 (accepted by the engine). -/
example : EnlargedEval { testFn with lower := ![0, -2, -1], upper := ![4, 6, 1], opt := ![0, 1, -1] } draw
    (fun _ => -1) (.error .valueError) :=
  C83_violated_negative_category (i := 2) rfl ⟨1, by decide +kernel, le_refl _⟩

end Rbfopt.StepDemo
