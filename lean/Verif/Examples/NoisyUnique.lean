import Verif.Props.NoisyExists

/-!
# C100: a quadratic program whose solution is not the ordinary interpolant
-/

namespace Rbfopt

open Finset

/-- Nodes 0 and 1 on a line. -/
def nodes100 : ℕ → ℕ → ℝ := fun i _ => i

/-- Values 0 and 1. -/
def val100 : ℕ → ℝ := fun i => i

/-- The value 1 may be too large by 1; the value 0 is exact. -/
def errLo100 : ℕ → ℝ := fun i => -i

theorem nodes100_distinct : DistinctNodes 1 2 nodes100 := by
  intro i _ j _ h
  have := h 0 one_pos
  simp only [nodes100] at this
  exact_mod_cast this

theorem nodes100_noTiny (t : Rbf) (g : ℝ) : NoTinyEntries t g 0 1 2 nodes100 :=
  fun _ _ _ _ => .inr (abs_nonneg _)

/-- The hypotheses of the theorems of C100 are met (linear basis functions): the constant 0 is the least
bumpy model through the intervals {0} and [0, 1], whereas the ordinary interpolant is the function `x`,
which is bumpier; and the exact node determines the polynomial everywhere, so that the model is unique. -/
theorem C100_example :
    BumpOptimal .linear 0 0 1 2 nodes100 val100 errLo100 (fun _ => 0) (fun _ => 0) (fun _ => 0) ∧
    (BumpFeasible .linear 0 0 1 2 nodes100 val100 errLo100 (fun _ => 0) (fun i => if i = 0 then 1 / 2 else - (1 / 2))
      (fun _ => 1 / 2) ∧
     0 < pyBump .linear 2 (rbfMatrix .linear 0 0 1 2 nodes100) (fun i => if i = 0 then 1 / 2 else - (1 / 2))) ∧
    (∀ i < 2, errLo100 i ≤ (fun _ : ℕ => (0 : ℝ)) i) ∧
    ∀ (x d : ℕ → ℝ), (∀ i < 2, errLo100 i = (fun _ : ℕ => (0 : ℝ)) i → polyPart .linear 1 d (nodes100 i) = 0) →
      polyPart .linear 1 d x = 0 := by
  have hz := nodes100_noTiny .linear 0
  have hle : ∀ i < 2, errLo100 i ≤ (fun _ : ℕ => (0 : ℝ)) i := fun i _ => by
    simp [errLo100]
  have hdist : ∀ i j : ℕ, euclid 1 (nodes100 i) (nodes100 j) = |(i : ℝ) - j| := by
    intro i j
    simp only [euclid, nodes100, sum_range_one]
    exact Real.sqrt_mul_self_eq_abs _
  have hother : BumpFeasible .linear 0 0 1 2 nodes100 val100 errLo100 (fun _ => 0)
      (fun i => if i = 0 then 1 / 2 else - (1 / 2)) (fun _ => 1 / 2) := by
    rw [bumpFeasible_iff hz hle]
    constructor
    · intro i hi
      rw [evaluate_eq]
      simp only [hdist, sum_range_succ, sum_range_zero, sizeP, matP, phi, val100, errLo100]
      interval_cases i <;> norm_num
    · intro c hc
      simp only [sum_range_succ, sum_range_zero, sizeP, matP]
      norm_num
  refine ⟨⟨?_, fun a b hab => ?_⟩, ⟨hother, ?_⟩, hle, fun x d h => ?_⟩
  · rw [bumpFeasible_iff hz hle]
    refine ⟨fun i _ => ?_, by simp⟩
    have : evaluateRbf .linear 0 1 2 nodes100 (fun _ => 0) (fun _ => 0) (nodes100 i) = 0 := by
      rw [evaluate_eq]; simp
    rw [this]
    simp only [val100, errLo100]
    constructor
    · linarith
    · positivity
  · have h0 : pyBump .linear 2 (rbfMatrix .linear 0 0 1 2 nodes100) (fun _ => 0) = 0 := by simp [pyBump]
    rw [h0]
    by_cases hne : ∃ i < 2, a i ≠ 0
    · exact (pyBump_pos (fun h => by cases h) hz nodes100_distinct ((bumpFeasible_iff hz hle).mp hab).2 hne).le
    · push Not at hne
      rw [pyBump_congr (lam' := fun _ => 0) hne, h0]
  · exact pyBump_pos (fun h => by cases h) hz nodes100_distinct ((bumpFeasible_iff hz hle).mp hother).2
      ⟨0, by norm_num, by norm_num⟩
  · have := h 0 (by norm_num) (by simp [errLo100])
    simpa [polyPart, sizeP] using this

/-- **C100, violated** If no value is exact, the model need not be determined: with values 0 at both nodes
and deviations up to 1, every constant between -1 and 1 is an optimal model, so that the model used depends
on the solver. -/
theorem C100_violated_all_noisy (a : ℝ) (h1 : -1 ≤ a) (h2 : a ≤ 1) :
    BumpOptimal .linear 0 0 1 2 nodes100 (fun _ => 0) (fun _ => -1) (fun _ => 1) (fun _ => 0) (fun _ => a) ∧
    ∀ x, evaluateRbf .linear 0 1 2 nodes100 (fun _ => 0) (fun _ => a) x = a := by
  have hz := nodes100_noTiny .linear 0
  have hle : ∀ i < 2, (fun _ : ℕ => (-1 : ℝ)) i ≤ (fun _ : ℕ => (1 : ℝ)) i := fun i _ => by norm_num
  have hv : ∀ x, evaluateRbf .linear 0 1 2 nodes100 (fun _ => 0) (fun _ => a) x = a := by
    intro x
    rw [evaluateRbf_eq_poly]
    simp [polyPart, sizeP]
  refine ⟨⟨?_, fun l b hab => ?_⟩, hv⟩
  · rw [bumpFeasible_iff hz hle]
    refine ⟨fun i _ => ?_, by simp⟩
    rw [hv]
    constructor <;> linarith
  · have h0 : pyBump .linear 2 (rbfMatrix .linear 0 0 1 2 nodes100) (fun _ => 0) = 0 := by simp [pyBump]
    rw [h0]
    by_cases hne : ∃ i < 2, l i ≠ 0
    · exact (pyBump_pos (fun h => by cases h) hz nodes100_distinct ((bumpFeasible_iff hz hle).mp hab).2 hne).le
    · push Not at hne
      rw [pyBump_congr (lam' := fun _ => 0) hne, h0]

end Rbfopt
