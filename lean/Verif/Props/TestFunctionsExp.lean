import Verif.Props.TestFunctionsMore
import Mathlib.Analysis.Complex.Exponential

/-!
# C88: hartman3 and ex4_1_2 declare values that are not their minima
-/

namespace Rbfopt
namespace TestFns
open Real

/-- A lower bound on the exponential of a negative number that rational arithmetic can check. -/
theorem exp_neg_ge {u b : ℝ} (h0 : 0 ≤ u) (h1 : u ≤ 1) (hb : 0 ≤ b)
    (h : b * ((∑ m ∈ Finset.range 8, u ^ m / m.factorial) + u ^ 8 * 9 / (40320 * 8)) ≤ 1) :
    b ≤ exp (-u) := by
  have h2 := Real.exp_bound' h0 h1 (n := 8) (by norm_num)
  rw [Real.exp_neg, ← one_div, le_div_iff₀ (Real.exp_pos u)]
  refine le_trans (mul_le_mul_of_nonneg_left h2 hb) ?_
  norm_num [Nat.factorial] at h ⊢
  exact h

/-- The declared value of hartman3 is not its minimum: the point (0.1146, 0.5556, 0.8525) is better by more
than 1e-4. -/
theorem C88_violated_hartman3 : hartman3.Feasible hartman3.optPoint ∧ ¬ hartman3.NoneBelow 1e-4 := by
  refine ⟨?_, ?_⟩
  · intro i; fin_cases i <;> norm_num [hartman3]
  · intro h
    have := h ![0.1146, 0.5556, 0.8525] ?_ _ rfl
    · have e2 : (0.58342 : ℝ) ≤ exp (-0.538838659) :=
        exp_neg_ge (by norm_num) (by norm_num) (by norm_num) (by norm_num [Finset.sum_range_succ, Nat.factorial])
      have e4 : (0.96443 : ℝ) ≤ exp (-0.03621451025) :=
        exp_neg_ge (by norm_num) (by norm_num) (by norm_num) (by norm_num [Finset.sum_range_succ, Nat.factorial])
      have e3 : (0.39958 : ℝ) ≤ exp (-0.9173333875) :=
        exp_neg_ge (by norm_num) (by norm_num) (by norm_num) (by norm_num [Finset.sum_range_succ, Nat.factorial])
      have e3' : (0.39958 : ℝ) ^ 4 ≤ exp (-3.66933355) := by
        rw [show (-3.66933355 : ℝ) = (4 : ℕ) * (-0.9173333875) by norm_num, Real.exp_nat_mul]
        exact pow_le_pow_left₀ (by norm_num) e3 4
      have e1 := Real.exp_pos (-12.39147627)
      have hs : (∑ i : Fin 4, (![1.0, 1.2, 3.0, 3.2] i : ℝ)
          * exp (-∑ j : Fin 3, hartA j i * ((![0.1146, 0.5556, 0.8525] : Fin 3 → ℝ) j - hartP j i) ^ 2))
          = exp (-12.39147627) + 1.2 * exp (-0.538838659) + 3 * exp (-3.66933355)
            + 3.2 * exp (-0.03621451025) := by
        rw [Fin.sum_univ_four]
        simp only [Fin.sum_univ_three]
        have a1 : (hartA 0 0 * ((![0.1146, 0.5556, 0.8525] : Fin 3 → ℝ) 0 - hartP 0 0) ^ 2
          + hartA 1 0 * ((![0.1146, 0.5556, 0.8525] : Fin 3 → ℝ) 1 - hartP 1 0) ^ 2
          + hartA 2 0 * ((![0.1146, 0.5556, 0.8525] : Fin 3 → ℝ) 2 - hartP 2 0) ^ 2) = 12.39147627 := by
          simp [hartA, hartP]; norm_num
        have a2 : (hartA 0 1 * ((![0.1146, 0.5556, 0.8525] : Fin 3 → ℝ) 0 - hartP 0 1) ^ 2
          + hartA 1 1 * ((![0.1146, 0.5556, 0.8525] : Fin 3 → ℝ) 1 - hartP 1 1) ^ 2
          + hartA 2 1 * ((![0.1146, 0.5556, 0.8525] : Fin 3 → ℝ) 2 - hartP 2 1) ^ 2) = 0.538838659 := by
          simp [hartA, hartP]; norm_num
        have a3 : (hartA 0 2 * ((![0.1146, 0.5556, 0.8525] : Fin 3 → ℝ) 0 - hartP 0 2) ^ 2
          + hartA 1 2 * ((![0.1146, 0.5556, 0.8525] : Fin 3 → ℝ) 1 - hartP 1 2) ^ 2
          + hartA 2 2 * ((![0.1146, 0.5556, 0.8525] : Fin 3 → ℝ) 2 - hartP 2 2) ^ 2) = 3.66933355 := by
          simp [hartA, hartP]; norm_num
        have a4 : (hartA 0 3 * ((![0.1146, 0.5556, 0.8525] : Fin 3 → ℝ) 0 - hartP 0 3) ^ 2
          + hartA 1 3 * ((![0.1146, 0.5556, 0.8525] : Fin 3 → ℝ) 1 - hartP 1 3) ^ 2
          + hartA 2 3 * ((![0.1146, 0.5556, 0.8525] : Fin 3 → ℝ) 2 - hartP 2 3) ^ 2) = 0.03621451025 := by
          simp [hartA, hartP]; norm_num
        rw [a1, a2, a3, a4]
        simp
        norm_num
      rw [hs] at this
      have hq : hartman3.optVal = -3.8626347486217725 := rfl
      rw [hq] at this
      norm_num at *
      linarith
    · intro i; fin_cases i <;> norm_num [hartman3]

/-- The declared value of ex4_1_2 is not its minimum: the point 1.09117 is better by more than 7e-4. -/
theorem C88_violated_ex4_1_2 : ex4_1_2.Feasible ex4_1_2.optPoint ∧ ¬ ex4_1_2.NoneBelow 7e-4 := by
  refine ⟨?_, ?_⟩
  · intro i; fin_cases i; norm_num [ex4_1_2]
  · intro h
    have := h ![1.09117] ?_ _ rfl
    · norm_num [ex4_1_2, ex412A, Fin.sum_univ_succ] at this
    · intro i; fin_cases i; norm_num [ex4_1_2]

end TestFns
end Rbfopt
