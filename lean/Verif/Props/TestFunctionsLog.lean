import Verif.Props.TestFunctionsMore

/-!
# C88: `nvs09` and `nvs09_cat`
-/

namespace Rbfopt
namespace TestFns
open Real

/-- Bounds of log 7, from 7 ^ 4 = 2401 = 2400 + 1 and the bounds of log 2, log 3, log 5. -/
theorem log7_bounds : 1.9459101 < log 7 ∧ log 7 < 1.9459103 := by
  have h2 := Real.log_two_gt_d9
  have h2' := Real.log_two_lt_d9
  have h3 := Real.log_three_gt_d9
  have h3' := Real.log_three_lt_d9
  have h5 := Real.log_five_gt_d9
  have h5' := Real.log_five_lt_d9
  have e : 4 * log 7 = log 2400 + log (2401 / 2400) := by
    rw [← Real.log_mul (by norm_num) (by norm_num), ← Nat.cast_ofNat (n := 4), ← Real.log_pow]
    norm_num
  have e' : log 2400 = 5 * log 2 + log 3 + 2 * log 5 := by
    have a : log ((2 : ℝ) ^ 5) = 5 * log 2 := by rw [Real.log_pow]; norm_num
    have b : log ((5 : ℝ) ^ 2) = 2 * log 5 := by rw [Real.log_pow]; norm_num
    rw [← a, ← b, ← Real.log_mul (by norm_num) (by norm_num), ← Real.log_mul (by norm_num) (by norm_num)]
    norm_num
  have u : log (2401 / 2400) ≤ 2401 / 2400 - 1 := Real.log_le_sub_one_of_pos (by norm_num)
  have l : 1 - (2401 / 2400 : ℝ)⁻¹ ≤ log (2401 / 2400) := Real.one_sub_inv_le_log_of_pos (by norm_num)
  norm_num at u l
  constructor
  · norm_num at h2 h3 h5 ⊢; linarith
  · norm_num at h2' h3' h5' ⊢; linarith

/-- The two logarithm terms of one variable at an integer between 3 and 8 are at most 0.1 below
their value at 9. -/
theorem nvs09_term {k : ℤ} (h0 : 3 ≤ k) (h1 : k ≤ 9) :
    log 7 ^ 2 - 0.1 ≤ log ((k : ℝ) - 2) ^ 2 + log (10 - (k : ℝ)) ^ 2 := by
  obtain ⟨l7, u7⟩ := log7_bounds
  have h2 := Real.log_two_gt_d9
  have h3 := Real.log_three_gt_d9
  have h5 := Real.log_five_gt_d9
  have e4 : log 4 = 2 * log 2 := Real.log_four_eq
  have e6 : log 6 = log 2 + log 3 := by
    rw [← Real.log_mul (by norm_num) (by norm_num)]; norm_num
  interval_cases k <;> norm_num <;> (try rw [e6]) <;> (try rw [e4]) <;> nlinarith

theorem C88_nvs09 : nvs09.OptimumIs 1e-4 := by
  have hv : nvs09.vars = fun _ => ⟨3, 9, .I⟩ := rfl
  have ho : nvs09.optPoint = fun _ => 9 := by
    funext i
    fin_cases i <;> rfl
  have hq : nvs09.optVal = -43.134336918035 := rfl
  obtain ⟨l7, u7⟩ := log7_bounds
  have p9 : ((9 : ℝ) ^ 10) ^ (0.2 : ℝ) = 81 := by
    rw [← Real.rpow_natCast, ← Real.rpow_mul (by norm_num)]
    norm_num
  refine optimumIs_of (g := fun x => _) (fun x => rfl) ?_ ?_ rfl ?_
  · intro i
    rw [hv, ho]
    norm_num [intLit_ofNat]
  · rw [ho, hq]
    simp only [Finset.sum_const, Finset.prod_const, Finset.card_univ, Fintype.card_fin, p9]
    norm_num [abs_le]
    constructor <;> nlinarith
  · intro x hx
    have hi : ∀ i, ∃ k : ℤ, x i = k ∧ 3 ≤ k ∧ k ≤ 9 := fun i =>
      intCoord hx i 3 9 (by simp [hv]) (by simp [hv]) (by simp [hv])
    choose k hk k0 k1 using hi
    rw [hq]
    by_cases hall : ∀ i, k i = 9
    · have : x = fun _ => 9 := by
        funext i
        rw [hk, hall]; norm_num
      rw [this]
      simp only [Finset.sum_const, Finset.prod_const, Finset.card_univ, Fintype.card_fin, p9]
      norm_num
      nlinarith
    · push Not at hall
      obtain ⟨i, hi⟩ := hall
      have h8 : k i ≤ 8 := by have := k1 i; omega
      have hsum : 10 * (log 7 ^ 2 - 0.1) ≤ ∑ i : Fin 10, (log (x i - 2) ^ 2 + log (10 - x i) ^ 2) := by
        have := Finset.sum_le_sum (s := Finset.univ) fun (i : Fin 10) _ => nvs09_term (k0 i) (k1 i)
        rw [Finset.sum_const, Finset.card_univ, Fintype.card_fin, nsmul_eq_mul] at this
        simp only [hk]
        exact_mod_cast this
      have x0 : ∀ j, 0 ≤ x j := by
        intro j; rw [hk]; have := k0 j; exact_mod_cast (by omega : 0 ≤ k j)
      have x9 : ∀ j, x j ≤ 9 := by
        intro j; rw [hk]; exact_mod_cast k1 j
      have hprod : ∏ j : Fin 10, x j ≤ 8 * 9 ^ 9 := by
        rw [← Finset.mul_prod_erase _ _ (Finset.mem_univ i)]
        have h1 : x i ≤ 8 := by rw [hk]; exact_mod_cast h8
        have h2 : ∏ j ∈ Finset.univ.erase i, x j ≤ 9 ^ 9 := by
          have := Finset.prod_le_prod (s := Finset.univ.erase i) (fun j _ => x0 j) (fun j _ => x9 j)
          simpa using this
        exact mul_le_mul h1 h2 (Finset.prod_nonneg fun j _ => x0 j) (by norm_num)
      have hpow : (∏ j : Fin 10, x j) ^ (0.2 : ℝ) ≤ 79.2 := by
        have h1 : ∏ j : Fin 10, x j ≤ (79.2 : ℝ) ^ 5 := le_trans hprod (by norm_num)
        have h2 := Real.rpow_le_rpow (Finset.prod_nonneg fun j _ => x0 j) h1 (by norm_num : (0 : ℝ) ≤ 0.2)
        refine le_trans h2 (le_of_eq ?_)
        rw [← Real.rpow_natCast, ← Real.rpow_mul (by norm_num)]
        norm_num
      norm_num at hsum hpow ⊢
      nlinarith

/-- The declared optimum of `nvs09_cat` is not one: it is attained at the declared point, and the
point with all ten variables at 8 is better by more than 2. -/
theorem C88_violated_nvs09_cat :
    nvs09_cat.Feasible nvs09_cat.optPoint ∧
    ∃ p : Fin 11 → ℝ, nvs09_cat.Feasible p ∧
      ∃ w, nvs09_cat.eval p = some w ∧ w < nvs09_cat.optVal - 2 := by
  have hv : nvs09_cat.vars = ![⟨3, 9, .I⟩, ⟨3, 9, .I⟩, ⟨3, 9, .I⟩, ⟨3, 9, .I⟩, ⟨3, 9, .I⟩, ⟨3, 9, .I⟩,
    ⟨3, 9, .I⟩, ⟨3, 9, .I⟩, ⟨3, 9, .I⟩, ⟨3, 9, .I⟩, ⟨0, 4, .C⟩] := rfl
  have ho : nvs09_cat.optPoint = ![8, 8, 8, 8, 7, 8, 7, 8, 8, 8, 2] := rfl
  have hq : nvs09_cat.optVal = -53.179649471788274 := rfl
  refine ⟨?_, ![8, 8, 8, 8, 8, 8, 8, 8, 8, 8, 2], ?_, ?_⟩
  · intro i
    rw [hv, ho]
    fin_cases i <;> norm_num [intLit_ofNat]
  · intro i
    rw [hv]
    fin_cases i <;> norm_num [intLit_ofNat]
  · dsimp only [nvs09_cat]
    have h10 : (![8, 8, 8, 8, 8, 8, 8, 8, 8, 8, 2] : Fin 11 → ℝ) 10 = 2 := rfl
    rw [h10, if_neg (by norm_num), if_neg (by norm_num), if_pos rfl]
    refine ⟨_, rfl, ?_⟩
    have hx : ∀ i : Fin 10, (![8, 8, 8, 8, 8, 8, 8, 8, 8, 8, 2] : Fin 11 → ℝ) i.castSucc = 8 := by
      intro i; fin_cases i <;> rfl
    simp only [hx, Finset.sum_const, Finset.prod_const, Finset.card_univ, Fintype.card_fin]
    have p8 : ((8 : ℝ) ^ 10) ^ (0.2 : ℝ) = 64 := by
      rw [← Real.rpow_natCast, ← Real.rpow_mul (by norm_num)]
      norm_num
    rw [p8]
    norm_num

end TestFns
end Rbfopt
