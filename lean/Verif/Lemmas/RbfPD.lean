import Mathlib.Analysis.SpecialFunctions.ContinuousFunctionalCalculus.Rpow.IntegralRepresentation
import Mathlib.Analysis.SpecialFunctions.ImproperIntegrals
import Mathlib.Analysis.SpecialFunctions.Exponential
import Mathlib.Analysis.SpecialFunctions.Integrals.Basic
import Mathlib.Algebra.BigOperators.Field

/-!
# Conditional definiteness of the radial basis functions

Proofs for C92.  The Gaussian kernel is strictly positive definite (power series of the exponential and
separation of points by products of coordinates); `1 / (u + r²)` is an integral of Gaussians; `r`,
`sqrt (r² + c)` and `r³` are integrals of such kernels up to terms that vanish on the side conditions
(Mathlib's integral representation of powers), and so is `r² log r`.
-/

namespace Rbfopt
namespace PD

open Finset MeasureTheory Set

variable {ι : Type} [Fintype ι] {n : ℕ}

/-- Quadratic form of a kernel. -/
def quad (K : ι → ι → ℝ) (l : ι → ℝ) : ℝ := ∑ i, ∑ j, l i * l j * K i j

/-- Squared distance. -/
def sq (x : ι → Fin n → ℝ) (i j : ι) : ℝ := ∑ a, (x i a - x j a) ^ 2

omit [Fintype ι] in
theorem sq_nonneg' (x : ι → Fin n → ℝ) (i j : ι) : 0 ≤ sq x i j := sum_nonneg (fun _ _ => sq_nonneg _)

/-- The sum over the points of a product of coordinates. -/
theorem pow_quad (x : ι → Fin n → ℝ) (l : ι → ℝ) (m : ℕ) :
    quad (fun i j => (∑ a, x i a * x j a) ^ m) l
      = ∑ f : Fin m → Fin n, (∑ i, l i * ∏ b, x i (f b)) ^ 2 := by
  unfold quad
  simp only [Fintype.sum_pow, pow_two, Finset.mul_sum, Finset.sum_mul]
  rw [Finset.sum_congr rfl (fun i _ => Finset.sum_comm)]
  rw [Finset.sum_comm]
  refine Finset.sum_congr rfl (fun f _ => Finset.sum_congr rfl (fun i _ =>
    Finset.sum_congr rfl (fun j _ => ?_)))
  rw [Finset.prod_mul_distrib]
  ring

theorem all_monomials {x : ι → Fin n → ℝ} {l : ι → ℝ}
    (h : ∀ m, quad (fun i j => (∑ a, x i a * x j a) ^ m) l = 0) (L : List (Fin n)) :
    ∑ i, l i * (L.map (x i)).prod = 0 := by
  have h1 := h L.length
  rw [pow_quad, Finset.sum_eq_zero_iff_of_nonneg (fun _ _ => sq_nonneg _)] at h1
  have h2 := h1 (fun b => L.get b) (Finset.mem_univ _)
  rw [pow_eq_zero_iff (by norm_num)] at h2
  rw [← h2]
  refine Finset.sum_congr rfl (fun i _ => ?_)
  congr 1
  rw [← List.prod_ofFn]
  congr 1
  apply List.ext_getElem <;> simp

theorem all_products {x : ι → Fin n → ℝ} {l : ι → ℝ}
    (h : ∀ L : List (Fin n), ∑ i, l i * (L.map (x i)).prod = 0) (F : List (Fin n × ℝ)) :
    ∀ L : List (Fin n),
      ∑ i, l i * ((L.map (x i)).prod * (F.map (fun f => x i f.1 - f.2)).prod) = 0 := by
  induction F with
  | nil => intro L; simpa using h L
  | cons f F ih =>
    intro L
    have h1 := ih (f.1 :: L)
    have h2 := ih L
    simp only [List.map_cons, List.prod_cons] at h1 ⊢
    have : ∀ i, l i * ((L.map (x i)).prod * ((x i f.1 - f.2) * (F.map (fun f => x i f.1 - f.2)).prod))
        = l i * (x i f.1 * (L.map (x i)).prod * (F.map (fun f => x i f.1 - f.2)).prod)
          - f.2 * (l i * ((L.map (x i)).prod * (F.map (fun f => x i f.1 - f.2)).prod)) := by
      intro i; ring
    rw [Finset.sum_congr rfl (fun i _ => this i), Finset.sum_sub_distrib, ← Finset.mul_sum, h1, h2]
    simp

theorem coeffs_zero {x : ι → Fin n → ℝ} (hx : Function.Injective x) {l : ι → ℝ}
    (h : ∀ m, quad (fun i j => (∑ a, x i a * x j a) ^ m) l = 0) : l = 0 := by
  classical
  have h1 := all_products (all_monomials h)
  funext i0
  have hc : ∀ j : {j // j ≠ i0}, ∃ a, x i0 a ≠ x j a := by
    rintro ⟨j, hj⟩
    exact Function.ne_iff.mp (fun e => hj (hx e).symm)
  choose a ha using hc
  have h2 := h1 ((Finset.univ : Finset {j // j ≠ i0}).toList.map (fun j => (a j, x j (a j)))) []
  have h3 : ∀ i, (((Finset.univ : Finset {j // j ≠ i0}).toList.map (fun j => (a j, x j (a j)))).map
      (fun f => x i f.1 - f.2)).prod = ∏ j : {j // j ≠ i0}, (x i (a j) - x j (a j)) := by
    intro i
    rw [List.map_map, Finset.prod_map_toList]
    rfl
  simp only [List.map_nil, List.prod_nil, one_mul, h3] at h2
  rw [Finset.sum_eq_single i0] at h2
  · refine (mul_eq_zero.mp h2).resolve_right ?_
    refine Finset.prod_ne_zero_iff.mpr ?_
    exact fun j _ => sub_ne_zero.mpr (ha j)
  · intro j _ hj
    rw [Finset.prod_eq_zero (Finset.mem_univ ⟨j, hj⟩) (by simp), mul_zero]
  · intro h; exact absurd (Finset.mem_univ _) h

theorem quad_smul (c : ℝ) (K : ι → ι → ℝ) (l : ι → ℝ) :
    quad (fun i j => c * K i j) l = c * quad K l := by
  unfold quad
  simp only [Finset.mul_sum]
  exact Finset.sum_congr rfl (fun i _ => Finset.sum_congr rfl (fun j _ => by ring))

theorem quad_scale (K : ι → ι → ℝ) (c l : ι → ℝ) :
    quad (fun i j => c i * c j * K i j) l = quad K (fun i => c i * l i) := by
  unfold quad
  refine Finset.sum_congr rfl (fun i _ => Finset.sum_congr rfl (fun j _ => ?_))
  ring

theorem quad_sum_hasSum {K : ℕ → ι → ι → ℝ} {S : ι → ι → ℝ} (l : ι → ℝ)
    (h : ∀ i j, HasSum (fun m => K m i j) (S i j)) : HasSum (fun m => quad (K m) l) (quad S l) :=
  hasSum_sum (fun i _ => hasSum_sum (fun j _ => (h i j).mul_left _))

/-- The Gaussian kernel is strictly positive definite. -/
theorem gauss_pos {x : ι → Fin n → ℝ} (hx : Function.Injective x) {l : ι → ℝ} (hl : l ≠ 0) {s : ℝ}
    (hs : 0 < s) : 0 < quad (fun i j => Real.exp (-s * sq x i j)) l := by
  have e : (fun i j => Real.exp (-s * sq x i j)) = fun i j =>
      Real.exp (-s * ∑ a, x i a ^ 2) * Real.exp (-s * ∑ a, x j a ^ 2) *
        Real.exp (2 * s * ∑ a, x i a * x j a) := by
    funext i j
    rw [← Real.exp_add, ← Real.exp_add]
    congr 1
    unfold sq
    simp only [Finset.mul_sum, ← Finset.sum_add_distrib]
    exact Finset.sum_congr rfl (fun a _ => by ring)
  rw [e, quad_scale]
  set m := fun i => Real.exp (-s * ∑ a, x i a ^ 2) * l i with hm
  have hm0 : m ≠ 0 := by
    intro h0
    apply hl
    funext i
    have := congrFun h0 i
    exact (mul_eq_zero.mp this).resolve_left (Real.exp_ne_zero _)
  have hsum : HasSum (fun k : ℕ => quad (fun i j => (2 * s * ∑ a, x i a * x j a) ^ k / (k.factorial : ℝ)) m)
      (quad (fun i j => Real.exp (2 * s * ∑ a, x i a * x j a)) m) := by
    refine quad_sum_hasSum m (fun i j => ?_)
    rw [Real.exp_eq_exp_ℝ]
    exact NormedSpace.expSeries_div_hasSum_exp (2 * s * ∑ a, x i a * x j a)
  have hterm : ∀ k : ℕ, quad (fun i j => (2 * s * ∑ a, x i a * x j a) ^ k / (k.factorial : ℝ)) m
      = (2 * s) ^ k / (k.factorial : ℝ) * quad (fun i j => (∑ a, x i a * x j a) ^ k) m := by
    intro k
    rw [← quad_smul]
    congr 1
    funext i j
    rw [mul_pow (2 * s)]; ring
  have hn : ∀ k : ℕ, 0 ≤ quad (fun i j => (2 * s * ∑ a, x i a * x j a) ^ k / (k.factorial : ℝ)) m := by
    intro k
    rw [hterm, pow_quad]
    exact mul_nonneg (by positivity) (Finset.sum_nonneg (fun _ _ => sq_nonneg _))
  have h0 : 0 ≤ quad (fun i j => Real.exp (2 * s * ∑ a, x i a * x j a)) m := hsum.nonneg hn
  refine lt_of_le_of_ne h0 (fun hz => hm0 ?_)
  rw [← hz] at hsum
  have hz' := (hasSum_zero_iff_of_nonneg hn).mp hsum
  refine coeffs_zero hx (fun k => ?_)
  have := congrFun hz' k
  rw [Pi.zero_apply, hterm] at this
  exact (mul_eq_zero.mp this).resolve_left (by positivity)


theorem quad_integral {μ : Measure ℝ} {K : ℝ → ι → ι → ℝ} (l : ι → ℝ)
    (h : ∀ i j, Integrable (fun s => K s i j) μ) :
    Integrable (fun s => quad (K s) l) μ ∧
      ∫ s, quad (K s) l ∂μ = quad (fun i j => ∫ s, K s i j ∂μ) l := by
  have h1 : ∀ i j, Integrable (fun s => l i * l j * K s i j) μ := fun i j => (h i j).const_mul _
  refine ⟨integrable_finsetSum _ (fun i _ => integrable_finsetSum _ (fun j _ => h1 i j)), ?_⟩
  unfold quad
  rw [integral_finsetSum _ (fun i _ => integrable_finsetSum _ (fun j _ => h1 i j))]
  refine Finset.sum_congr rfl (fun i _ => ?_)
  rw [integral_finsetSum _ (fun j _ => h1 i j)]
  exact Finset.sum_congr rfl (fun j _ => integral_const_mul _ _)

/-- An integral over the positive half line of a positive function is positive. -/
theorem integral_Ioi_pos {f : ℝ → ℝ} (hf : IntegrableOn f (Ioi 0)) (hp : ∀ s, 0 < s → 0 < f s) :
    0 < ∫ s in Ioi (0 : ℝ), f s := by
  rw [setIntegral_pos_iff_support_of_nonneg_ae]
  · have : Ioi (0 : ℝ) ⊆ Function.support f ∩ Ioi 0 :=
      fun s hs => ⟨(hp s hs).ne', hs⟩
    refine lt_of_lt_of_le ?_ (measure_mono this)
    simp
  · exact (ae_restrict_iff' measurableSet_Ioi).mpr (Filter.Eventually.of_forall
      (fun s hs => (hp s hs).le))
  · exact hf

/-- The kernel `1 / (u + r²)` is strictly positive definite. -/
theorem inv_pos {x : ι → Fin n → ℝ} (hx : Function.Injective x) {l : ι → ℝ} (hl : l ≠ 0) {u : ℝ}
    (hu : 0 < u) : 0 < quad (fun i j => (u + sq x i j)⁻¹) l := by
  have hint : ∀ i j, IntegrableOn (fun s => Real.exp (-u * s) * Real.exp (-s * sq x i j)) (Ioi 0) ∧
      ∫ s in Ioi (0 : ℝ), Real.exp (-u * s) * Real.exp (-s * sq x i j) = (u + sq x i j)⁻¹ := by
    intro i j
    have hpos : 0 < u + sq x i j := by have := sq_nonneg' x i j; linarith
    have e : (fun s => Real.exp (-u * s) * Real.exp (-s * sq x i j)) =
        fun s => Real.exp (-(u + sq x i j) * s) := by
      funext s; rw [← Real.exp_add]; congr 1; ring
    rw [e]
    refine ⟨integrableOn_exp_mul_Ioi (by linarith) 0, ?_⟩
    rw [integral_exp_mul_Ioi (by linarith)]
    simp only [mul_zero, Real.exp_zero]
    rw [neg_div_neg_eq, one_div]
  obtain ⟨h1, h2⟩ := quad_integral (μ := volume.restrict (Ioi 0)) l (fun i j => (hint i j).1)
  have e : (fun i j => (u + sq x i j)⁻¹) =
      fun i j => ∫ s in Ioi (0 : ℝ), Real.exp (-u * s) * Real.exp (-s * sq x i j) := by
    funext i j; exact (hint i j).2.symm
  rw [e, ← h2]
  refine integral_Ioi_pos h1 (fun s hs => ?_)
  have := mul_pos (Real.exp_pos (-u * s)) (gauss_pos hx hl hs)
  unfold quad at this ⊢
  simp only [Finset.mul_sum] at this
  refine lt_of_lt_of_eq this (Finset.sum_congr rfl (fun i _ => Finset.sum_congr rfl (fun j _ => ?_)))
  ring

theorem quad_add (K K' : ι → ι → ℝ) (l : ι → ℝ) :
    quad (fun i j => K i j + K' i j) l = quad K l + quad K' l := by
  unfold quad; simp only [mul_add, Finset.sum_add_distrib]

theorem quad_const (c : ℝ) {l : ι → ℝ} (h : ∑ i, l i = 0) : quad (fun _ _ => c) l = 0 := by
  unfold quad
  have : ∀ i, ∑ j, l i * l j * c = 0 := by
    intro i
    rw [← Finset.sum_mul, ← Finset.mul_sum, h]; simp
  simp [this]

theorem quad_sq {x : ι → Fin n → ℝ} {l : ι → ℝ} (h : ∑ i, l i = 0) (hx : ∀ a, ∑ i, l i * x i a = 0) :
    quad (sq x) l = 0 := by
  have e : sq x = fun i j => ((∑ a, x i a ^ 2) + (∑ a, x j a ^ 2)) + (-2) * ∑ a, x i a * x j a := by
    funext i j
    unfold sq
    simp only [Finset.mul_sum, ← Finset.sum_add_distrib]
    exact Finset.sum_congr rfl (fun a _ => by ring)
  rw [e, quad_add, quad_add, quad_smul]
  have h1 : quad (fun i _ => ∑ a, x i a ^ 2) l = 0 := by
    unfold quad
    refine Finset.sum_eq_zero (fun i _ => ?_)
    rw [← Finset.sum_mul, ← Finset.mul_sum, h]; simp
  have h2 : quad (fun _ j => ∑ a, x j a ^ 2) l = 0 := by
    unfold quad
    rw [Finset.sum_comm]
    refine Finset.sum_eq_zero (fun j _ => ?_)
    rw [← Finset.sum_mul, ← Finset.sum_mul, h]; simp
  have h3 : quad (fun i j => ∑ a, x i a * x j a) l = 0 := by
    have := pow_quad x l 1
    simp only [pow_one] at this
    rw [this]
    refine Finset.sum_eq_zero (fun f _ => ?_)
    simp [hx (f 0)]
  rw [h1, h2, h3]; simp

/-- `sqrt (r² + c)` is strictly conditionally negative definite of order 1. -/
theorem sqrt_neg {x : ι → Fin n → ℝ} (hx : Function.Injective x) {l : ι → ℝ} (hl : l ≠ 0)
    (h0 : ∑ i, l i = 0) {c : ℝ} (hc : 0 ≤ c) : quad (fun i j => Real.sqrt (sq x i j + c)) l < 0 := by
  have hp : (1 / 2 : ℝ) ∈ Ioo (0 : ℝ) 1 := by constructor <;> norm_num
  set C := ∫ t in Ioi (0 : ℝ), Real.rpowIntegrand₀₁ (1 / 2) t 1 with hC
  have hCp : 0 < C := Real.integral_rpowIntegrand₀₁_one_pos hp
  have hn : ∀ i j, 0 ≤ sq x i j + c := fun i j => add_nonneg (sq_nonneg' x i j) hc
  have hint : ∀ i j, IntegrableOn (fun t => -Real.rpowIntegrand₀₁ (1 / 2) t (sq x i j + c)) (Ioi 0) :=
    fun i j => (Real.integrableOn_rpowIntegrand₀₁_Ioi hp (hn i j)).neg
  obtain ⟨h1, h2⟩ := quad_integral (μ := volume.restrict (Ioi 0)) l hint
  have hpos := integral_Ioi_pos h1 (fun s hs => by
    have e : (fun i j => -Real.rpowIntegrand₀₁ (1 / 2) s (sq x i j + c)) = fun i j =>
        -(s ^ (1 / 2 : ℝ) * s⁻¹) + s ^ (1 / 2 : ℝ) * ((s + c) + sq x i j)⁻¹ := by
      funext i j
      unfold Real.rpowIntegrand₀₁
      rw [show s + (sq x i j + c) = s + c + sq x i j by ring]
      ring
    rw [e, quad_add, quad_const _ h0, quad_smul, zero_add]
    exact mul_pos (Real.rpow_pos_of_pos hs _) (inv_pos hx hl (by linarith)))
  rw [h2] at hpos
  have e : (fun i j => ∫ t in Ioi (0 : ℝ), -Real.rpowIntegrand₀₁ (1 / 2) t (sq x i j + c)) =
      fun i j => (-C) * Real.sqrt (sq x i j + c) := by
    funext i j
    rw [integral_neg, Real.integral_rpowIntegrand₀₁_eq_rpow_mul_const hp (hn i j), Real.sqrt_eq_rpow]
    ring
  rw [e, quad_smul] at hpos
  nlinarith

/-- `(r²)^{3/2}` is strictly conditionally positive definite of order 2. -/
theorem cubic_pos {x : ι → Fin n → ℝ} (hx : Function.Injective x) {l : ι → ℝ} (hl : l ≠ 0)
    (h0 : ∑ i, l i = 0) (hx0 : ∀ a, ∑ i, l i * x i a = 0) :
    0 < quad (fun i j => sq x i j ^ (3 / 2 : ℝ)) l := by
  have hp : (3 / 2 : ℝ) ∈ Ioo (1 : ℝ) 2 := by constructor <;> norm_num
  have hn : ∀ i j, 0 ≤ sq x i j := fun i j => sq_nonneg' x i j
  obtain ⟨h1, h2⟩ := quad_integral (μ := volume.restrict (Ioi 0)) l
    (fun i j => Real.integrableOn_rpowIntegrand₁₂ hp (hn i j))
  have hpos := integral_Ioi_pos h1 (fun s hs => by
    have e : (fun i j => Real.rpowIntegrand₁₂ (3 / 2) s (sq x i j)) = fun i j =>
        -(s ^ (3 / 2 - 1 : ℝ)) + ((s ^ (3 / 2 - 1 : ℝ) * s⁻¹) * sq x i j +
          (s ^ (3 / 2 - 1 : ℝ) * s) * (s + sq x i j)⁻¹) := by
      funext i j
      unfold Real.rpowIntegrand₁₂
      ring
    rw [e, quad_add, quad_const _ h0, quad_add, quad_smul, quad_smul, quad_sq h0 hx0, zero_add,
      mul_zero, zero_add]
    exact mul_pos (mul_pos (Real.rpow_pos_of_pos hs _) hs) (inv_pos hx hl hs))
  rw [h2] at hpos
  set C := ∫ t in Ioi (0 : ℝ), Real.rpowIntegrand₀₁ (3 / 2 - 1) t 1 with hC
  have hCp : 0 < C := Real.integral_rpowIntegrand₀₁_one_pos (by constructor <;> norm_num)
  have e : (fun i j => sq x i j ^ (3 / 2 : ℝ)) =
      fun i j => C⁻¹ * ∫ t in Ioi (0 : ℝ), Real.rpowIntegrand₁₂ (3 / 2) t (sq x i j) := by
    funext i j
    exact Real.rpow_eq_const_mul_integral_rpowIntegrand₁₂ hp (hn i j)
  rw [e, quad_smul]
  exact mul_pos (inv_pos_of_pos hCp) hpos

/-- `∫ u / (t + u)` over `(0, U]`. -/
theorem integral_ratio {t U : ℝ} (ht : 0 ≤ t) (hU : 0 < U) :
    IntegrableOn (fun u => u * (u + t)⁻¹) (Ioc 0 U) ∧
      ∫ u in Ioc (0 : ℝ) U, u * (u + t)⁻¹ = U - t * Real.log (t + U) + t * Real.log t := by
  rcases ht.eq_or_lt with rfl | ht
  · have e : EqOn (fun u : ℝ => u * (u + 0)⁻¹) (fun _ => 1) (Ioc 0 U) := by
      intro u hu
      have : u ≠ 0 := hu.1.ne'
      simp [this]
    refine ⟨(integrableOn_congr_fun e measurableSet_Ioc).mpr (by simp), ?_⟩
    rw [setIntegral_congr_fun measurableSet_Ioc e]
    simp [hU.le]
  · have hc : ContinuousOn (fun u : ℝ => u * (u + t)⁻¹) (Icc 0 U) := by
      refine continuousOn_id.mul (ContinuousOn.inv₀ (by fun_prop) ?_)
      intro u hu; have := hu.1; positivity
    refine ⟨hc.integrableOn_Icc.mono_set Ioc_subset_Icc_self, ?_⟩
    rw [← intervalIntegral.integral_of_le hU.le]
    have hd : ∀ u ∈ uIcc 0 U, HasDerivAt (fun u => u - t * Real.log (u + t)) (u * (u + t)⁻¹) u := by
      intro u hu
      rw [uIcc_of_le hU.le] at hu
      have hp : 0 < u + t := by have := hu.1; linarith
      have h1 := ((hasDerivAt_id u).add_const t).log hp.ne'
      have h2 := (hasDerivAt_id u).sub (h1.const_mul t)
      refine h2.congr_deriv ?_
      simp only [id]
      field_simp
      ring
    rw [intervalIntegral.integral_eq_sub_of_hasDerivAt hd]
    · rw [zero_add, add_comm U t]; ring
    · rw [intervalIntegrable_iff_integrableOn_Ioc_of_le hU.le]
      exact hc.integrableOn_Icc.mono_set Ioc_subset_Icc_self

/-- `r² log r²` is strictly conditionally positive definite of order 2. -/
theorem tps_pos {x : ι → Fin n → ℝ} (hx : Function.Injective x) {l : ι → ℝ} (hl : l ≠ 0)
    (h0 : ∑ i, l i = 0) (hx0 : ∀ a, ∑ i, l i * x i a = 0) :
    0 < quad (fun i j => sq x i j * Real.log (sq x i j)) l := by
  have hn : ∀ i j, 0 ≤ sq x i j := fun i j => sq_nonneg' x i j
  -- the part of the integral up to `U`
  have hq : ∀ U : ℝ, 0 < U →
      IntegrableOn (fun u => u * quad (fun i j => (u + sq x i j)⁻¹) l) (Ioc 0 U) ∧
      ∫ u in Ioc (0 : ℝ) U, u * quad (fun i j => (u + sq x i j)⁻¹) l =
        quad (fun i j => sq x i j * Real.log (sq x i j)) l
          - quad (fun i j => sq x i j * Real.log (1 + sq x i j / U)) l := by
    intro U hU
    obtain ⟨h1, h2⟩ := quad_integral (μ := volume.restrict (Ioc 0 U)) l
      (fun i j => (integral_ratio (hn i j) hU).1)
    simp only [quad_smul] at h1 h2
    refine ⟨h1, h2.trans ?_⟩
    have e : (fun i j => ∫ u in Ioc (0 : ℝ) U, u * (u + sq x i j)⁻¹) = fun i j =>
        U + (sq x i j * Real.log (sq x i j) + ((-Real.log U) * sq x i j +
          (-1) * (sq x i j * Real.log (1 + sq x i j / U)))) := by
      funext i j
      rw [(integral_ratio (hn i j) hU).2]
      have : Real.log (sq x i j + U) = Real.log U + Real.log (1 + sq x i j / U) := by
        rw [← Real.log_mul hU.ne' (by have := hn i j; positivity)]
        congr 1
        field_simp
        ring
      rw [this]; ring
    rw [e, quad_add, quad_const _ h0, quad_add, quad_add, quad_smul, quad_smul, quad_sq h0 hx0]
    ring
  have hpos : ∀ u, 0 < u → 0 < u * quad (fun i j => (u + sq x i j)⁻¹) l :=
    fun u hu => mul_pos hu (inv_pos hx hl hu)
  have hint1 : 0 < ∫ u in Ioc (0 : ℝ) 1, u * quad (fun i j => (u + sq x i j)⁻¹) l := by
    rw [setIntegral_pos_iff_support_of_nonneg_ae]
    · have : Ioc (0 : ℝ) 1 ⊆ Function.support
          (fun u => u * quad (fun i j => (u + sq x i j)⁻¹) l) ∩ Ioc 0 1 :=
        fun s hs => ⟨(hpos s hs.1).ne', hs⟩
      refine lt_of_lt_of_le ?_ (measure_mono this)
      simp
    · exact (ae_restrict_iff' measurableSet_Ioc).mpr (Filter.Eventually.of_forall
        (fun s hs => (hpos s hs.1).le))
    · exact (hq 1 one_pos).1
  set δ := ∫ u in Ioc (0 : ℝ) 1, u * quad (fun i j => (u + sq x i j)⁻¹) l with hδ
  set B := ∑ i, ∑ j, |l i * l j| * sq x i j ^ 2 with hB
  have hB0 : 0 ≤ B := Finset.sum_nonneg (fun i _ => Finset.sum_nonneg (fun j _ => by positivity))
  set U := B / δ + 1 with hU
  have hU1 : 1 ≤ U := by have : 0 ≤ B / δ := by positivity
                         linarith
  have hU0 : 0 < U := by linarith
  have hge : δ ≤ ∫ u in Ioc (0 : ℝ) U, u * quad (fun i j => (u + sq x i j)⁻¹) l := by
    refine setIntegral_mono_set (hq U hU0).1 ?_ ?_
    · exact (ae_restrict_iff' measurableSet_Ioc).mpr (Filter.Eventually.of_forall
        (fun s hs => (hpos s hs.1).le))
    · exact (Ioc_subset_Ioc_right hU1).eventuallyLE
  rw [(hq U hU0).2] at hge
  have hrest : -(B / U) ≤ quad (fun i j => sq x i j * Real.log (1 + sq x i j / U)) l := by
    rw [hB, Finset.sum_div, ← Finset.sum_neg_distrib]
    refine Finset.sum_le_sum (fun i _ => ?_)
    rw [Finset.sum_div, ← Finset.sum_neg_distrib]
    refine Finset.sum_le_sum (fun j _ => ?_)
    have ht := hn i j
    have h1 : 0 ≤ Real.log (1 + sq x i j / U) := Real.log_nonneg (by
      have : 0 ≤ sq x i j / U := by positivity
      linarith)
    have h2 : Real.log (1 + sq x i j / U) ≤ sq x i j / U := by
      have := Real.log_le_sub_one_of_pos (show 0 < 1 + sq x i j / U by positivity)
      linarith
    have h3 : sq x i j * Real.log (1 + sq x i j / U) ≤ sq x i j ^ 2 / U := by
      calc _ ≤ sq x i j * (sq x i j / U) := mul_le_mul_of_nonneg_left h2 ht
        _ = _ := by ring
    have h4 := neg_abs_le (l i * l j)
    have h5 : 0 ≤ sq x i j * Real.log (1 + sq x i j / U) := mul_nonneg ht h1
    calc -(|l i * l j| * sq x i j ^ 2 / U) = -|l i * l j| * (sq x i j ^ 2 / U) := by ring
      _ ≤ -|l i * l j| * (sq x i j * Real.log (1 + sq x i j / U)) :=
          mul_le_mul_of_nonpos_left h3 (neg_nonpos.mpr (abs_nonneg _))
      _ ≤ _ := mul_le_mul_of_nonneg_right h4 h5
  have hlt : B / U < δ := by
    rw [div_lt_iff₀ hU0, hU, mul_add, mul_div_cancel₀ _ hint1.ne']
    linarith
  linarith

end PD
end Rbfopt
