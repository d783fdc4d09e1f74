import Verif.Props.Underdet

/-!
# The hypotheses of C84 and C85 are met
-/

namespace Rbfopt.UnderdetDemo

open Finset

open Classical in
/-- A least squares solver meeting `LstsqOk`. -/
noncomputable def exactLstsq (m : ℕ) (A : ℕ → ℕ → ℝ) (b : ℕ → ℝ) : Option (ℕ → ℝ) :=
  if h : ∃ x : ℕ → ℝ, (∀ y, residual m A b x ≤ residual m A b y) ∧
      ∀ y, residual m A b y = residual m A b x → ∑ j ∈ range m, x j ^ 2 ≤ ∑ j ∈ range m, y j ^ 2
  then some h.choose else none

theorem exactLstsq_ok : LstsqOk exactLstsq := by
  constructor
  · intro m A b x h
    unfold exactLstsq at h
    split at h
    · rename_i hx; cases h; exact hx.choose_spec.1
    · cases h
  · intro m A b x h
    unfold exactLstsq at h
    split at h
    · rename_i hx; cases h; exact hx.choose_spec.2
    · cases h

/-- Two nodes in the plane: (0, 0) and (1, 0). -/
def nodes (i c : ℕ) : ℝ := if i = 1 ∧ c = 0 then 1 else 0

/-- The values 0 and 2. -/
def val (i : ℕ) : ℝ := if i = 1 then 2 else 0

theorem kept : keptIndices .cubic 2 2 [] = [0, 1, 2, 3, 4] := by decide

theorem independent : NodesIndependent .cubic (1/1000) 2 2 nodes [] := by
  intro w hw
  rw [kept] at hw
  have h0 := hw 0 (by decide) (by decide)
  have h2 := hw 2 (by decide) (by decide)
  norm_num [sum_range_succ, matP, sizeP, zeroTiny, nodes] at h0 h2
  intro i hi
  interval_cases i
  · linarith
  · exact h0

/-- The least squares problem has a solution of smallest norm: slope 2 in the first coordinate. -/
theorem solved : ∃ lam h, rbfCoefficientsUnderdet exactLstsq .cubic 2 2
    (rbfMatrix .cubic (1/10) (1/1000) 2 2 nodes) val [] = some (lam, h) := by
  have hex : ∃ x : ℕ → ℝ, (∀ y, residual 5
        (fun i j => rbfMatrix .cubic (1/10) (1/1000) 2 2 nodes (([0, 1, 2, 3, 4] : List ℕ).getD i 0)
          (([0, 1, 2, 3, 4] : List ℕ).getD j 0))
        (fun i => if ([0, 1, 2, 3, 4] : List ℕ).getD i 0 < 2 then
          val (([0, 1, 2, 3, 4] : List ℕ).getD i 0) else 0) x ≤ residual 5
        (fun i j => rbfMatrix .cubic (1/10) (1/1000) 2 2 nodes (([0, 1, 2, 3, 4] : List ℕ).getD i 0)
          (([0, 1, 2, 3, 4] : List ℕ).getD j 0))
        (fun i => if ([0, 1, 2, 3, 4] : List ℕ).getD i 0 < 2 then
          val (([0, 1, 2, 3, 4] : List ℕ).getD i 0) else 0) y) ∧
      ∀ y, residual 5
        (fun i j => rbfMatrix .cubic (1/10) (1/1000) 2 2 nodes (([0, 1, 2, 3, 4] : List ℕ).getD i 0)
          (([0, 1, 2, 3, 4] : List ℕ).getD j 0))
        (fun i => if ([0, 1, 2, 3, 4] : List ℕ).getD i 0 < 2 then
          val (([0, 1, 2, 3, 4] : List ℕ).getD i 0) else 0) y = residual 5
        (fun i j => rbfMatrix .cubic (1/10) (1/1000) 2 2 nodes (([0, 1, 2, 3, 4] : List ℕ).getD i 0)
          (([0, 1, 2, 3, 4] : List ℕ).getD j 0))
        (fun i => if ([0, 1, 2, 3, 4] : List ℕ).getD i 0 < 2 then
          val (([0, 1, 2, 3, 4] : List ℕ).getD i 0) else 0) x →
        ∑ j ∈ range 5, x j ^ 2 ≤ ∑ j ∈ range 5, y j ^ 2 := by
    refine ⟨fun j => if j = 2 then 2 else 0, ?_⟩
    have h0 : residual 5
        (fun i j => rbfMatrix .cubic (1/10) (1/1000) 2 2 nodes (([0, 1, 2, 3, 4] : List ℕ).getD i 0)
          (([0, 1, 2, 3, 4] : List ℕ).getD j 0))
        (fun i => if ([0, 1, 2, 3, 4] : List ℕ).getD i 0 < 2 then
          val (([0, 1, 2, 3, 4] : List ℕ).getD i 0) else 0) (fun j => if j = 2 then 2 else 0) = 0 := by
      rw [residual_eq_zero]
      intro i hi
      interval_cases i <;>
        norm_num [sum_range_succ, rbfMatrix, rawMatrix, matP, sizeP, zeroTiny, nodes, val]
    rw [h0]
    refine ⟨fun y => residual_nonneg, fun y hy => ?_⟩
    rw [residual_eq_zero] at hy
    have e0 := hy 0 (by norm_num)
    have e1 := hy 1 (by norm_num)
    have e2 := hy 2 (by norm_num)
    have e4 := hy 4 (by norm_num)
    norm_num [sum_range_succ, rbfMatrix, rawMatrix, matP, sizeP, zeroTiny, nodes, val, phi, euclid]
      at e0 e1 e2 e4
    norm_num [sum_range_succ]
    have h1 : y 1 = 0 := by linarith
    have h4 : y 4 = 0 := by linarith
    have h00 : y 0 = 0 := by linarith
    have h2 : y 2 = 2 := by linarith
    rw [h1, h4, h00, h2]
    nlinarith [sq_nonneg (y 3)]
  refine ⟨fun i => scatterCoef [0, 1, 2, 3, 4] hex.choose i,
    fun c => scatterCoef [0, 1, 2, 3, 4] hex.choose (2 + c), ?_⟩
  · unfold rbfCoefficientsUnderdet
    simp only [kept]
    have hs : exactLstsq ([0, 1, 2, 3, 4] : List ℕ).length
        (fun i j => rbfMatrix .cubic (1/10) (1/1000) 2 2 nodes (([0, 1, 2, 3, 4] : List ℕ).getD i 0)
          (([0, 1, 2, 3, 4] : List ℕ).getD j 0))
        (fun i => if ([0, 1, 2, 3, 4] : List ℕ).getD i 0 < 2 then
          val (([0, 1, 2, 3, 4] : List ℕ).getD i 0) else 0) = some hex.choose := dif_pos hex
    rw [hs]

/-- `C84` applies: no radial part, the values 0 and 2 are attained up to `eps_zero`. -/
example : ∃ lam h : ℕ → ℝ, (∀ j < 2, lam j = 0) ∧
    ∀ i < 2, |evaluateRbf .cubic (1/10) 2 2 nodes lam h (nodes i) - val i| ≤
      1/1000 * ∑ c ∈ range (sizeP .cubic 2), |h c| := by
  obtain ⟨lam, h, hc⟩ := solved
  have := C84_affine_through_nodes exactLstsq_ok (by norm_num) independent hc
  exact ⟨lam, h, this.1, this.2.1⟩

/-! ## C85 -/

/-- Two nodes on the line: 0 and 1. -/
def line (i c : ℕ) : ℝ := if i = 1 ∧ c = 0 then 1 else 0

noncomputable def R : RbfCfg := ⟨.cubic, 1/10, 0⟩

noncomputable def lin : LinAlg := ⟨exactSolve, exactLstsq⟩

theorem keptL : keptIndices .cubic 1 2 [] = [0, 1, 2, 3] := by decide

/-- Two nodes on the line: the linear system is solvable for all values. -/
theorem fit (v : ℕ → ℝ) : ∃ c, fitRbf lin R 1 2 line v [] = some c := by
  have hex : ∃ x : ℕ → ℝ, ∀ i < 4, ∑ j ∈ range 4,
      rbfMatrix .cubic (1/10) 0 1 2 line (([0, 1, 2, 3] : List ℕ).getD i 0)
        (([0, 1, 2, 3] : List ℕ).getD j 0) * x j =
      (if ([0, 1, 2, 3] : List ℕ).getD i 0 < 2 then v (([0, 1, 2, 3] : List ℕ).getD i 0) else 0) := by
    refine ⟨fun j => if j = 2 then v 1 - v 0 else if j = 3 then v 0 else 0, ?_⟩
    intro i hi
    interval_cases i <;>
      norm_num [sum_range_succ, rbfMatrix, rawMatrix, matP, sizeP, zeroTiny, line]
  refine ⟨(fun i => scatterCoef [0, 1, 2, 3] hex.choose i,
    fun c => scatterCoef [0, 1, 2, 3] hex.choose (2 + c)), ?_⟩
  unfold fitRbf rbfCoefficients
  simp only [R, lin, keptL, Nat.reduceAdd, lt_irrefl, if_false]
  have hs : exactSolve ([0, 1, 2, 3] : List ℕ).length
      (fun i j => rbfMatrix .cubic (1/10) 0 1 2 line (([0, 1, 2, 3] : List ℕ).getD i 0)
        (([0, 1, 2, 3] : List ℕ).getD j 0))
      (fun i => if ([0, 1, 2, 3] : List ℕ).getD i 0 < 2 then v (([0, 1, 2, 3] : List ℕ).getD i 0)
        else 0) = some hex.choose := dif_pos hex
  rw [hs]

/-- The values 100 and 200, affine scaling: the estimate at the second node is 100. -/
example : outstandingEstimates lin ⟨.off, .affine, 1/1000, 1000⟩ R 1 line [100, 200] 100 200
    [(0, 0), (0, 0)] [] [line 1] = some [100] := by
  have hsome : ∃ est, outstandingEstimates lin ⟨.off, .affine, 1/1000, 1000⟩ R 1 line [100, 200] 100 200
      [(0, 0), (0, 0)] [] [line 1] = some est := by
    unfold outstandingEstimates bulkComputeEvaluate
    have h1 : allSome (transformFunctionValues ⟨.off, .affine, 1/1000, 1000⟩ [100, 200] 100 200
        [(0, 0), (0, 0)]).vals = some [0, 1] := by
      unfold transformFunctionValues
      rw [clipLevel_off rfl]
      norm_num [clipAt, clippedFmax, allSome]
    rw [h1]
    obtain ⟨c, hc⟩ := fit (fun i => ([0, 1] : List ℝ).getD i 0)
    simp only [List.cons_ne_nil, if_false]
    have : ([100, 200] : List ℝ).length = 2 := rfl
    rw [this, hc]
    exact ⟨_, rfl⟩
  obtain ⟨est, he⟩ := hsome
  rw [he]
  have := (C85_violated_affine (L := lin) exactSolve_ok (R := R) rfl (by simp) rfl rfl (by norm_num)
    (by norm_num) (by intro v hv; simp at hv; rcases hv with rfl | rfl <;> norm_num) (i := 1)
    (by simp) he).1 (by norm_num)
  rw [this]

/-- The values 10 and 10^8, logarithmic scaling: the estimate at the second node is far below. -/
example : ∃ e : ℝ, outstandingEstimates lin ⟨.off, .log, 1/1000, 1000⟩ R 1 line [10, 100000000] 10
    100000000 [(0, 0), (0, 0)] [] [line 1] = some [e] ∧ e < 100000000 := by
  have hsome : ∃ est, outstandingEstimates lin ⟨.off, .log, 1/1000, 1000⟩ R 1 line [10, 100000000] 10
      100000000 [(0, 0), (0, 0)] [] [line 1] = some est := by
    unfold outstandingEstimates bulkComputeEvaluate
    have h1 : ∃ sv, allSome (transformFunctionValues ⟨.off, .log, 1/1000, 1000⟩ [10, 100000000] 10
        100000000 [(0, 0), (0, 0)]).vals = some sv := by
      unfold transformFunctionValues
      rw [clipLevel_off rfl]
      norm_num [clipAt, clippedFmax, allSome, logShift, amin, npLog]
    obtain ⟨sv, h1⟩ := h1
    rw [h1]
    obtain ⟨c, hc⟩ := fit (fun i => sv.getD i 0)
    simp only [List.cons_ne_nil, if_false]
    have : ([10, 100000000] : List ℝ).length = 2 := rfl
    rw [this, hc]
    exact ⟨_, rfl⟩
  obtain ⟨est, he⟩ := hsome
  have := C85_violated_log (L := lin) exactSolve_ok (R := R) rfl (by simp) rfl rfl
    (by simp) (by simp) (by norm_num)
    (by intro v hv; simp at hv; rcases hv with rfl | rfl <;> norm_num) (i := 1) (by simp) he
  obtain ⟨h1, h2⟩ := this
  refine ⟨_, by rw [he, h1], ?_⟩
  have := h2 (by norm_num) _ (by rw [h1]; exact List.mem_singleton_self _)
  simpa using this

end Rbfopt.UnderdetDemo
