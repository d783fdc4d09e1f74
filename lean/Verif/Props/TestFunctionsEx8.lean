import Verif.Props.TestFunctionsRest
import Mathlib.Analysis.Real.Pi.Bounds
import Mathlib.Analysis.SpecialFunctions.Trigonometric.Bounds
import Mathlib.Analysis.Complex.Exponential
import Mathlib.Analysis.Complex.Trigonometric
/-!
# C88: ex8_1_1 and ex8_1_1_cat
-/

namespace Rbfopt
namespace TestFns
open Real

/-- Eight digits of cos 1 by the exponential series. -/
theorem cos_one_digits : |cos 1 - (1 - 1/2 + 1/24 - 1/720 + 1/40320 - 1/3628800)| ≤ 1e-8 := by
  have h := Complex.exp_bound (x := Complex.I) (by simp) (n := 12) (by norm_num)
  have hre := (Complex.abs_re_le_norm _).trans h
  rw [Complex.sub_re] at hre
  have e1 : (Complex.exp Complex.I).re = cos 1 := by
    rw [← one_mul Complex.I, ← Complex.ofReal_one, Complex.exp_ofReal_mul_I_re]
  rw [e1] at hre
  have e2 : (∑ m ∈ Finset.range 12, Complex.I ^ m / (m.factorial : ℂ)).re = 1 - 1/2 + 1/24 - 1/720 + 1/40320 - 1/3628800 := by
    rw [Complex.re_sum]
    have hp : ∀ m : ℕ, Complex.I ^ (m + 4) = Complex.I ^ m := fun m => by
      rw [pow_add, Complex.I_pow_four, mul_one]
    simp only [Finset.sum_range_succ, Finset.sum_range_zero, Complex.div_natCast_re]
    rw [show (11:ℕ) = 7 + 4 from rfl, show (10:ℕ) = 6 + 4 from rfl, show (9:ℕ) = 5 + 4 from rfl,
      show (8:ℕ) = 4 + 4 from rfl, show (7:ℕ) = 3 + 4 from rfl, show (6:ℕ) = 2 + 4 from rfl,
      show (5:ℕ) = 1 + 4 from rfl]
    simp only [hp]
    norm_num [Nat.factorial, pow_succ]
  rw [e2] at hre
  refine hre.trans ?_
  norm_num [Nat.factorial]

theorem cos_two_bounds : -0.4161469 ≤ cos 2 ∧ cos 2 ≤ -0.4161467 := by
  obtain ⟨h1, h2⟩ := abs_le.mp cos_one_digits
  have h : cos 2 = 2 * cos 1 ^ 2 - 1 := by rw [← Real.cos_two_mul]; norm_num
  rw [h]
  norm_num at h1 h2
  constructor <;> nlinarith

/-- The optimum of ex8_1_1 is as declared. -/
theorem C88_ex8_1_1 : ex8_1_1.OptimumIs 1e-5 := by
  have hpi := Real.pi_gt_d2
  have hpi' := Real.pi_lt_d2
  obtain ⟨c1, c2⟩ := cos_two_bounds
  have hf := C88_rest_ex8_1_1
  refine ⟨hf.1, ⟨hf.2, _, rfl, ?_⟩, by intro p hp; simp [ex8_1_1] at hp, ?_⟩
  · have hs := Real.sin_bound (x := 0.105783) (by norm_num [abs_le])
    have hs' := abs_le.mp hs
    rw [abs_of_pos (by norm_num)] at hs'
    obtain ⟨s1, s2⟩ := hs'
    have e : (cos (ex8_1_1.optPoint 0) * sin (ex8_1_1.optPoint 1)
        - ex8_1_1.optPoint 0 / (ex8_1_1.optPoint 1 ^ 2 + 1)) - ex8_1_1.optVal
        = cos 2 * sin 0.105783 - 2 / (0.105783 ^ 2 + 1) + 2.0218067833 := by
      simp [ex8_1_1]; norm_num
    rw [e, abs_le]
    norm_num at s1 s2 c1 c2 ⊢
    constructor <;> nlinarith
  · intro x hx v hv
    cases hv
    have hv : ex8_1_1.vars = ![⟨-1, 2, .R⟩, ⟨-1, 1, .R⟩] := rfl
    have h0 := hx 0
    have h1 := hx 1
    simp only [hv] at h0 h1
    norm_num at h0 h1
    generalize x 0 = a at h0 ⊢
    generalize x 1 = t at h1 ⊢
    have ho : ex8_1_1.optVal = -2.0218067833 := rfl
    rw [ho]
    obtain ⟨a1, a2⟩ := h0
    obtain ⟨t1, t2⟩ := h1
    have hd : 0 < t ^ 2 + 1 := by positivity
    have hda : a / (t ^ 2 + 1) ≤ max a 0 := by
      rw [div_le_iff₀ hd]
      nlinarith [le_max_left a 0, le_max_right a 0, sq_nonneg t]
    have hsin := Real.abs_sin_le_one t
    rw [abs_le] at hsin
    rcases le_total a (π / 2) with hle | hge
    · have hc : 0 ≤ cos a := Real.cos_nonneg_of_mem_Icc ⟨by linarith, hle⟩
      have hc1 := Real.cos_le_one a
      rcases le_total a 0 with h9 | h9
      · rw [max_eq_right h9] at hda
        nlinarith
      · rw [max_eq_left h9] at hda
        have hca : cos a ≤ π / 2 - a := by
          rw [← Real.sin_pi_div_two_sub]
          exact Real.sin_le (by linarith)
        nlinarith
    · have hm : max a 0 = a := max_eq_left (by linarith)
      rw [hm] at hda
      have hc : cos a ≤ 0 := Real.cos_nonpos_of_pi_div_two_le_of_le hge (by linarith)
      have hc2 : cos 2 ≤ cos a := Real.cos_le_cos_of_nonneg_of_le_pi (by linarith) (by linarith) a2
      rcases le_total t 0 with ht | ht
      · have : sin t ≤ 0 := Real.sin_nonpos_of_nonpos_of_neg_pi_le ht (by linarith)
        nlinarith [mul_nonneg_of_nonpos_of_nonpos hc this]
      · have hst : 0 ≤ sin t := Real.sin_nonneg_of_nonneg_of_le_pi ht (by linarith)
        have hsb := (abs_le.mp (Real.sin_bound (x := t) (abs_le.mpr ⟨by linarith, t2⟩))).2
        rw [abs_of_nonneg ht] at hsb
        have h1 : cos 2 * sin t ≤ cos a * sin t := mul_le_mul_of_nonneg_right hc2 hst
        have h2 : a / (t ^ 2 + 1) ≤ 2 / (t ^ 2 + 1) := by gcongr
        have h3 : -0.4161469 * (t - t ^ 3 / 6 + t ^ 5 / 100) ≤ cos 2 * sin t := by nlinarith
        have h4 : 2 / (t ^ 2 + 1) ≤ 2.0218067833 + 1e-5 - 0.4161469 * (t - t ^ 3 / 6 + t ^ 5 / 100) := by
          rw [div_le_iff₀ hd]
          have p2 := pow_le_one₀ ht t2 (n := 2)
          have n2 : 0 ≤ t ^ 2 := by positivity
          have n3 : 0 ≤ t ^ 3 := by positivity
          have n5 : t ^ 5 ≤ 1 := pow_le_one₀ ht t2
          have n4 : t ^ 4 ≤ 1 := pow_le_one₀ ht t2
          have q : 0 ≤ (t - (529/5000)) ^ 2 * ((3044913636008059489191928857/1562500000000000000000000000) + (-129225876415480374013367/375000000000000000000000) * t ^ 1 + (1291484406548617177/93750000000000000000) * t ^ 2 + (4879245128182139/75000000000000000) * t ^ 3 + (-2201417101/2500000000000) * t ^ 4 + (-4161469/1000000000) * t ^ 5) :=
            mul_nonneg (sq_nonneg _) (by linarith)
          linarith
        linarith

/-- Every function offered by the last categorical variable is the sine, or between 0 and 1 on [-1, 1]. -/
theorem ex8_inner {x3 t y : ℝ} {g : ℝ → ℝ} (t1 : -1 ≤ t) (t2 : t ≤ 1)
    (h : (if x3 = 0 then some (fun t => sin (t + π / 4) ^ 2) else if x3 = 1 then some sin
      else if x3 = 2 then some (fun t => cos (t + π / 4) ^ 2)
      else if x3 = 3 then some cos else none) = some g) (hy : y = g t) : y = sin t ∨ (0 ≤ y ∧ y ≤ 1) := by
  subst hy
  have hpi := Real.pi_gt_d2
  split_ifs at h <;> cases h
  · right; exact ⟨sq_nonneg _, (sq_le_one_iff_abs_le_one _).mpr (Real.abs_sin_le_one _)⟩
  · left; rfl
  · right; exact ⟨sq_nonneg _, (sq_le_one_iff_abs_le_one _).mpr (Real.abs_cos_le_one _)⟩
  · right; exact ⟨Real.cos_nonneg_of_mem_Icc ⟨by linarith, by linarith⟩, Real.cos_le_one _⟩

/-- Every function offered by the first categorical variable is at least -1, and from 0 to 2 at least
min(0, cos). -/
theorem ex8_outer {x2 a y : ℝ} {g : ℝ → ℝ} (a2 : a ≤ 2)
    (h : (if x2 = 0 then some sin else if x2 = 1 then some cos
      else if x2 = 2 then some (fun t => cos (t + π / 4) ^ 2)
      else if x2 = 3 then some (fun t => sin (t + π / 4) ^ 2) else none) = some g) (hy : y = g a) :
    (-1 ≤ y ∧ y ≤ 1) ∧ (0 ≤ a → 0 ≤ y ∨ y = cos a) := by
  subst hy
  have hpi := Real.pi_gt_d2
  split_ifs at h <;> cases h
  · exact ⟨⟨Real.neg_one_le_sin _, Real.sin_le_one _⟩,
      fun ha => .inl (Real.sin_nonneg_of_nonneg_of_le_pi ha (by linarith))⟩
  · exact ⟨⟨Real.neg_one_le_cos _, Real.cos_le_one _⟩, fun _ => .inr rfl⟩
  · have := sq_nonneg (cos (a + π / 4))
    exact ⟨⟨by linarith, (sq_le_one_iff_abs_le_one _).mpr (Real.abs_cos_le_one _)⟩, fun _ => .inl this⟩
  · have := sq_nonneg (sin (a + π / 4))
    exact ⟨⟨by linarith, (sq_le_one_iff_abs_le_one _).mpr (Real.abs_sin_le_one _)⟩, fun _ => .inl this⟩

theorem ex8_1_1_cat_eval {x : Fin 4 → ℝ} {v : ℝ} (h : ex8_1_1_cat.eval x = some v) :
    ∃ y z : ℝ, v = y * z - x 0 / (x 1 ^ 2 + 1) ∧
      (x 0 ≤ 2 → (-1 ≤ y ∧ y ≤ 1) ∧ (0 ≤ x 0 → 0 ≤ y ∨ y = cos (x 0))) ∧
      (-1 ≤ x 1 → x 1 ≤ 1 → z = sin (x 1) ∨ (0 ≤ z ∧ z ≤ 1)) := by
  unfold ex8_1_1_cat at h
  dsimp only at h
  split at h
  · rename_i g1 g2 e1 e2
    cases h
    exact ⟨_, _, rfl, fun a2 => ex8_outer a2 e1 rfl, fun t1 t2 => ex8_inner t1 t2 e2 rfl⟩
  · cases h

/-- The optimum of ex8_1_1_cat is as declared. -/
theorem C88_ex8_1_1_cat : ex8_1_1_cat.OptimumIs 1e-6 := by
  have hpi := Real.pi_gt_d2
  have hpi' := Real.pi_lt_d2
  obtain ⟨c1, c2⟩ := cos_two_bounds
  have hf := C88_rest_ex8_1_1_cat
  refine ⟨hf.1, ⟨hf.2, cos 2.0 * cos (-0.00030) - 2.0 / ((-0.00030) ^ 2 + 1), ?_, ?_⟩,
    by intro p hp; simp [ex8_1_1_cat] at hp, ?_⟩
  · have h2 : ex8_1_1_cat.optPoint 2 = 1 := rfl
    have h3 : ex8_1_1_cat.optPoint 3 = 3 := rfl
    have h0 : ex8_1_1_cat.optPoint 0 = 2.0 := rfl
    have h1 : ex8_1_1_cat.optPoint 1 = -0.00030 := rfl
    generalize ex8_1_1_cat.optPoint = p at *
    unfold ex8_1_1_cat
    dsimp only
    rw [h0, h1, h2, h3, if_neg (by norm_num), if_pos rfl, if_neg (by norm_num), if_neg (by norm_num),
      if_neg (by norm_num), if_pos rfl]
  · have h1 := Real.cos_le_one (-0.00030)
    have h2 := Real.one_sub_sq_div_two_le_cos (x := -0.00030)
    have ho : ex8_1_1_cat.optVal = -2.4161466378205514 := rfl
    rw [ho, abs_le]
    norm_num at h1 h2 c1 c2 ⊢
    constructor <;> nlinarith
  · intro x hx v hv
    obtain ⟨y, z, rfl, hy, hz⟩ := ex8_1_1_cat_eval hv
    have hvars : ex8_1_1_cat.vars = ![⟨-1, 2, .R⟩, ⟨-1, 1, .R⟩, ⟨0, 3, .C⟩, ⟨0, 3, .C⟩] := rfl
    have h0 := hx 0
    have h1 := hx 1
    simp only [hvars] at h0 h1
    norm_num at h0 h1
    generalize x 0 = a at h0 hy ⊢
    generalize x 1 = t at h1 hz ⊢
    have ho : ex8_1_1_cat.optVal = -2.4161466378205514 := rfl
    rw [ho]
    obtain ⟨a1, a2⟩ := h0
    obtain ⟨t1, t2⟩ := h1
    obtain ⟨⟨y1, y2⟩, hy⟩ := hy a2
    have hd : 0 < t ^ 2 + 1 := by positivity
    rcases hz t1 t2 with rfl | ⟨z1, z2⟩
    · have h2 : a / (t ^ 2 + 1) ≤ 2 / (t ^ 2 + 1) := by gcongr
      have h3 : |sin t| ≤ |t| := Real.abs_sin_le_abs
      have h4 : -|t| ≤ y * sin t := by
        have h5 : |y * sin t| ≤ |t| := by
          rw [abs_mul]
          calc |y| * |sin t| ≤ 1 * |t| := mul_le_mul (abs_le.mpr ⟨y1, y2⟩) h3 (abs_nonneg _) (by norm_num)
            _ = |t| := one_mul _
        exact (abs_le.mp h5).1
      have ht : |t| ≤ 1 := abs_le.mpr ⟨t1, t2⟩
      have ht0 := abs_nonneg t
      have h6 : 2 / (t ^ 2 + 1) ≤ 2.2 - |t| := by
        rw [div_le_iff₀ hd, ← sq_abs t]
        generalize |t| = u at *
        nlinarith [mul_nonneg ht0 (sq_nonneg (u - 0.3)), sq_nonneg (u - 0.3)]
      linarith
    · have hda : a / (t ^ 2 + 1) ≤ max a 0 := by
        rw [div_le_iff₀ hd]
        nlinarith [le_max_left a 0, le_max_right a 0, sq_nonneg t]
      rcases le_total a 0 with ha | ha
      · rw [max_eq_right ha] at hda
        nlinarith
      · rw [max_eq_left ha] at hda
        rcases hy ha with h | rfl
        · nlinarith [mul_nonneg h z1]
        · have hc2 : cos 2 ≤ cos a := Real.cos_le_cos_of_nonneg_of_le_pi ha (by linarith) a2
          nlinarith

end TestFns
end Rbfopt
