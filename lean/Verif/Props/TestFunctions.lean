import Verif.Spec.TestFunctions
import Mathlib.Tactic.FinCases
import Mathlib.Tactic.IntervalCases
import Mathlib.Tactic.Linarith
import Mathlib.Tactic.Positivity

/-!
# C88: the declared optima of the bundled test functions
-/

namespace Rbfopt
namespace TestFns
open Real

/-- Assembling the four parts for a function that always returns a value. -/
theorem optimumIs_of {n : ℕ} {T : BundledFn n} {tol : ℝ} {g : (Fin n → ℝ) → ℝ} (hg : ∀ x, T.eval x = some (g x))
    (hp : T.Feasible T.optPoint) (hv : |g T.optPoint - T.optVal| ≤ tol) (he : T.extraOptima = [])
    (hb : ∀ x, T.Feasible x → T.optVal - tol ≤ g x) : T.OptimumIs tol :=
  { total := fun x _ => ⟨_, hg x⟩
    attained := ⟨hp, _, hg _, hv⟩
    also := by rw [he]; simp
    least := by
      intro x hx v h
      rw [hg] at h
      rw [← Option.some.inj h]
      exact hb x hx }

theorem C88_rbrock : rbrock.OptimumIs 0 := by
  refine optimumIs_of (g := fun x => _) (fun x => rfl) ?_ ?_ rfl ?_
  · intro i; fin_cases i <;> norm_num [rbrock]
  · norm_num [rbrock]
  · intro x _
    norm_num [rbrock]
    positivity

theorem C88_ex8_1_4 : ex8_1_4.OptimumIs 0 := by
  refine optimumIs_of (g := fun x => _) (fun x => rfl) ?_ ?_ rfl ?_
  · intro i; fin_cases i <;> norm_num [ex8_1_4]
  · norm_num [ex8_1_4]
  · intro x _
    norm_num [ex8_1_4]
    have h : 12 * x 0 ^ 2 - 63 / 10 * x 0 ^ 4 + x 0 ^ 6 - 6 * x 0 * x 1 + 6 * x 1 ^ 2
        = 6 * (x 1 - x 0 / 2) ^ 2 + x 0 ^ 2 * ((x 0 ^ 2 - 3.15) ^ 2 + 0.5775) := by ring
    rw [h]
    positivity

theorem C88_goldsteinprice : goldsteinprice.OptimumIs 0 := by
  refine optimumIs_of (g := fun x => _) (fun x => rfl) ?_ ?_ rfl ?_
  · intro i; fin_cases i <;> norm_num [goldsteinprice]
  · norm_num [goldsteinprice]
  · intro x _
    norm_num [goldsteinprice]
    have h1 : 1 ≤ 1 + (x 0 + x 1 + 1) ^ 2
        * (19 - 14 * x 0 + 3 * x 0 ^ 2 - 14 * x 1 + 6 * x 0 * x 1 + 3 * x 1 ^ 2) := by
      have : 0 ≤ 19 - 14 * x 0 + 3 * x 0 ^ 2 - 14 * x 1 + 6 * x 0 * x 1 + 3 * x 1 ^ 2 := by
        nlinarith [sq_nonneg (x 0 + x 1 - 7 / 3)]
      have := mul_nonneg (sq_nonneg (x 0 + x 1 + 1)) this
      linarith
    have h2 : 3 ≤ 30 + (2 * x 0 - 3 * x 1) ^ 2
        * (18 - 32 * x 0 + 12 * x 0 ^ 2 + 48 * x 1 - 36 * x 0 * x 1 + 27 * x 1 ^ 2) := by
      have e : 30 + (2 * x 0 - 3 * x 1) ^ 2
        * (18 - 32 * x 0 + 12 * x 0 ^ 2 + 48 * x 1 - 36 * x 0 * x 1 + 27 * x 1 ^ 2) - 3
        = ((2 * x 0 - 3 * x 1) - 3) ^ 2 * (3 * (2 * x 0 - 3 * x 1) ^ 2 + 2 * (2 * x 0 - 3 * x 1) + 3) := by
        ring
      have : 0 ≤ 3 * (2 * x 0 - 3 * x 1) ^ 2 + 2 * (2 * x 0 - 3 * x 1) + 3 := by
        nlinarith [sq_nonneg ((2 * x 0 - 3 * x 1) + 1 / 3)]
      have := mul_nonneg (sq_nonneg ((2 * x 0 - 3 * x 1) - 3)) this
      linarith
    nlinarith

theorem C88_perm_6 : perm_6.OptimumIs 0 := by
  refine optimumIs_of (g := fun x => _) (fun x => rfl) ?_ ?_ rfl ?_
  · intro i; fin_cases i <;> norm_num [perm_6]
  · have : ∀ (i : Fin 6) (k : ℕ), (((i : ℝ) + 1) / ((i : ℝ) + 1)) ^ k = 1 := by
      intro i k
      rw [div_self (by positivity), one_pow]
    norm_num [perm_6, this]
  · intro x _
    norm_num [perm_6]
    positivity

theorem C88_perm0_8 : perm0_8.OptimumIs 0 := by
  refine optimumIs_of (g := fun x => _) (fun x => rfl) ?_ ?_ rfl ?_
  · intro i; fin_cases i <;> norm_num [perm0_8]
  · norm_num [perm0_8]
  · intro x _
    norm_num [perm0_8]
    positivity

end TestFns
end Rbfopt
