import Verif.Props.TestFunctionsMore
import Mathlib.Analysis.Complex.Exponential

/-!
# C88: a polynomial, the six-hump camel, and the shekel functions

The shekel functions declare the value at (4, 4, 4, 4), which is not their minimum.
-/

namespace Rbfopt
namespace TestFns
open Real

theorem C88_ex4_1_1 : ex4_1_1.OptimumIs 1e-8 := by
  refine optimumIs_of (g := fun x => _) (fun x => rfl) ?_ ?_ rfl ?_
  · intro i; fin_cases i; norm_num [ex4_1_1]
  · rw [abs_le]; constructor <;> norm_num [ex4_1_1]
  · intro x hx
    have h0 := hx 0
    have hl : (-2 : ℝ) ≤ x 0 := by have := h0.1; norm_num [ex4_1_1] at this; exact this
    have hu : x 0 ≤ 11 := by have := h0.2.1; norm_num [ex4_1_1] at this; exact this
    show (-7.487312360731 : ℝ) - 1e-8 ≤ _
    generalize x 0 = x at hl hu ⊢
    have key : x ^ 6 - (52.0 / 25.0) * x ^ 5 + (39.0 / 80.0) * x ^ 4
      + (71.0 / 10.0) * x ^ 3 - (79.0 / 20.0) * x ^ 2 - x + 1.0 / 10.0
      = (x - (-297824953547/250000000000)) ^ 2 * ((x ^ 2 + (-557824953547/250000000000) * x + (2/1)) ^ 2 + (22568565877492707881209/31250000000000000000000) * (x + (-2948611494848227042109481219198323/5642141469373176970302250000000000)) ^ 2 + (101290966748113601791818993661175228302173914003933298242252418036987/88158460458955890160972656250000000000000000000000000000000000000000))
        + (-377088017432943987715311258040871806688037521/488281250000000000000000000000000000000000000000000000000) * (x - (-297824953547/250000000000)) + (-1827957120337491151310090623277257449658677657322354680003189193987671/244140625000000000000000000000000000000000000000000000000000000000000) := by norm_num; ring
    rw [key]
    have : 0 ≤ (x - (-297824953547/250000000000)) ^ 2 * ((x ^ 2 + (-557824953547/250000000000) * x + (2/1)) ^ 2 + (22568565877492707881209/31250000000000000000000) * (x + (-2948611494848227042109481219198323/5642141469373176970302250000000000)) ^ 2 + (101290966748113601791818993661175228302173914003933298242252418036987/88158460458955890160972656250000000000000000000000000000000000000000)) := by positivity
    linarith

/-- The part near the two minima. -/
theorem camel_near {x y : ℝ} (hx : |x| ≤ 0.85) (hy : |y| ≤ 2) : (-1.0316284535 : ℝ) - 3e-8
    ≤ (4 - 2.1 * x ^ 2 + x ^ 4 / 3) * x ^ 2 + x * y + (-4 + 4 * y ^ 2) * y ^ 2 := by
  obtain ⟨w, hw⟩ : ∃ w : ℝ, y = -(2 * 3.966164482) * w := ⟨-(y / (2 * 3.966164482)), by ring⟩
  rw [abs_le] at hx hy
  obtain ⟨hx1, hx2⟩ := hx
  obtain ⟨hy1, hy2⟩ := hy
  have hw1 : -0.253 ≤ w := by rw [hw] at hy2; norm_num at hy2 ⊢; linarith
  have hw2 : w ≤ 0.253 := by rw [hw] at hy1; norm_num at hy1 ⊢; linarith
  have hs : (x + w) ^ 2 ≤ 1.2167 := by
    norm_num at *
    nlinarith
  have h2 : ((x - w) * (x + w)) ^ 2 ≤ 1.2167 * (x - w) ^ 2 := by
    rw [mul_pow]
    have := mul_le_mul_of_nonneg_left hs (sq_nonneg (x - w))
    linarith
  have h1 : (x ^ 2 - 0.0080715873) ^ 2 ≤ 1.5 * ((x - w) * (x + w)) ^ 2
      + 10 * (w ^ 2 - 0.0080715873) ^ 2 := by
    have e : x ^ 2 - 0.0080715873 = (x - w) * (x + w) + (w ^ 2 - 0.0080715873) := by ring
    rw [e]
    nlinarith [sq_nonneg ((x - w) * (x + w) - 2 * (w ^ 2 - 0.0080715873)),
      sq_nonneg (w ^ 2 - 0.0080715873)]
  have h3 : 3 * 0.0080715873 ^ 2 * x ^ 2 - 2 * 0.0080715873 ^ 3 ≤ x ^ 6 := by
    have : 0 ≤ (x ^ 2 - 0.0080715873) ^ 2 * (x ^ 2 + 2 * 0.0080715873) := by positivity
    nlinarith
  have h4 : 0 ≤ (x - w) ^ 2 := sq_nonneg _
  have h5 : 0 ≤ (w ^ 2 - 0.0080715873) ^ 2 := sq_nonneg _
  have h6 : w ^ 2 ≤ 0.1 := by norm_num at *; nlinarith
  have h7 : 0 ≤ w ^ 2 := sq_nonneg _
  have h8 : 0 ≤ x ^ 2 := sq_nonneg _
  rw [hw]
  norm_num at *
  nlinarith

theorem camel_ge {x y : ℝ} (hy : |y| ≤ 2) : (-1.0316284535 : ℝ) - 3e-8
    ≤ (4 - 2.1 * x ^ 2 + x ^ 4 / 3) * x ^ 2 + x * y + (-4 + 4 * y ^ 2) * y ^ 2 := by
  by_cases hx : |x| ≤ 0.85
  · exact camel_near hx hy
  · push Not at hx
    have ht : 0.7225 ≤ x ^ 2 := by
      rw [← sq_abs]
      have := mul_self_le_mul_self (by norm_num : (0 : ℝ) ≤ 0.85) hx.le
      norm_num at *
      nlinarith
    have h1 : 0 ≤ (x / 2 + y) ^ 2 := sq_nonneg _
    have h2 : 0 ≤ (y ^ 2 - 0.625) ^ 2 := sq_nonneg _
    have h3 : 0.54 ≤ 3.75 * x ^ 2 - 2.1 * (x ^ 2) ^ 2 + (x ^ 2) ^ 3 / 3 := by
      generalize x ^ 2 = t at ht
      norm_num at *
      nlinarith [mul_nonneg (by linarith : 0 ≤ t - 289 / 400) (sq_nonneg (t - 2.8))]
    norm_num at *
    nlinarith

theorem C88_camel : camel.OptimumIs 3e-8 := by
  refine optimumIs_of (g := fun x => _) (fun x => rfl) ?_ ?_ rfl ?_
  · intro i; fin_cases i <;> norm_num [camel]
  · rw [abs_le]; constructor <;> norm_num [camel]
  · intro x hx
    have h := hx 1
    refine camel_ge (abs_le.mpr ⟨?_, ?_⟩)
    · have := h.1; norm_num [camel] at this; exact this
    · have := h.2.1; norm_num [camel] at this; exact this

theorem C88_violated_shekel5 : shekel5.Attains 1e-12 shekel5.optPoint ∧ ¬ shekel5.NoneBelow 3.8e-6 := by
  refine ⟨⟨?_, _, rfl, ?_⟩, ?_⟩
  · intro i; fin_cases i <;> norm_num [shekel5]
  · rw [abs_le]; constructor <;> norm_num [shekel5, shekA5, shekC5, Fin.sum_univ_succ]
  · intro h
    have := h ![4.000037, 4.000133, 4.000037, 4.000133] ?_ _ rfl
    · norm_num [shekel5, shekA5, shekC5, Fin.sum_univ_succ] at this
    · intro i; fin_cases i <;> norm_num [shekel5]

theorem C88_violated_shekel7 : shekel7.Attains 1e-12 shekel7.optPoint ∧ ¬ shekel7.NoneBelow 1.2e-4 := by
  refine ⟨⟨?_, _, rfl, ?_⟩, ?_⟩
  · intro i; fin_cases i <;> norm_num [shekel7]
  · rw [abs_le]; constructor <;> norm_num [shekel7, shekA7, shekC7, Fin.sum_univ_succ]
  · intro h
    have := h ![4.00057, 4.00069, 3.99949, 3.99961] ?_ _ rfl
    · norm_num [shekel7, shekA7, shekC7, Fin.sum_univ_succ] at this
    · intro i; fin_cases i <;> norm_num [shekel7]

theorem C88_violated_shekel10 : shekel10.Attains 1e-12 shekel10.optPoint ∧ ¬ shekel10.NoneBelow 1.26e-4 := by
  refine ⟨⟨?_, _, rfl, ?_⟩, ?_⟩
  · intro i; fin_cases i <;> norm_num [shekel10]
  · rw [abs_le]; constructor <;> norm_num [shekel10, shekA10, shekC10, Fin.sum_univ_succ]
  · intro h
    have := h ![4.00075, 4.00059, 3.99966, 3.99951] ?_ _ rfl
    · norm_num [shekel10, shekA10, shekC10, Fin.sum_univ_succ] at this
    · intro i; fin_cases i <;> norm_num [shekel10]

end TestFns
end Rbfopt
