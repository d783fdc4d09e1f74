import Verif.Model.Pyomo
import Verif.Props.AuxObj
import Verif.Lemmas.Layout
import Verif.Props.Rounding
import Mathlib.Tactic.Linarith
import Mathlib.Tactic.NormNum
import Mathlib.Tactic.Positivity
import Mathlib.Analysis.SpecialFunctions.Log.Deriv
import Mathlib.Data.Matrix.Mul

/-!
# C56: the mathematical models given to the solvers agree with the numerical code
-/

namespace Rbfopt

open Finset

/-! ## The objective of the minimization of the interpolant -/

theorem sqDist_nonneg (n : ℕ) (x y : ℕ → ℝ) : 0 ≤ sqDist n x y :=
  sum_nonneg fun _ _ => sq_nonneg _

theorem euclid_eq_sqrt (n : ℕ) (x y : ℕ → ℝ) : euclid n x y = Real.sqrt (sqDist n x y) := by
  unfold euclid sqDist
  congr 1
  exact sum_congr rfl fun i _ => by ring

theorem euclid_sq (n : ℕ) (x y : ℕ → ℝ) : euclid n x y * euclid n x y = sqDist n x y := by
  rw [euclid_eq_sqrt, Real.mul_self_sqrt (sqDist_nonneg n x y)]

theorem rpow_three_halves {a : ℝ} (ha : 0 ≤ a) : a ^ (3 / 2 : ℝ) = a * Real.sqrt a := by
  rw [show (3 / 2 : ℝ) = 1 + 1 / 2 by norm_num, Real.rpow_add' ha (by norm_num), Real.rpow_one,
    Real.sqrt_eq_rpow]

theorem rpow_three_halves_sqrt {a : ℝ} (ha : 0 ≤ a) :
    a ^ (3 / 2 : ℝ) = Real.sqrt a * Real.sqrt a * Real.sqrt a := by
  rw [rpow_three_halves ha, Real.mul_self_sqrt ha]

/-- Largest difference between the expression of a model and the basis function, for a squared
distance `s`: the effect of the shift `δ`. -/
noncomputable def shiftError (t : Rbf) (δ s : ℝ) : ℝ :=
  match t with
  | .cubic => 3 / 2 * δ * Real.sqrt (δ + s)
  | .thinPlateSpline => δ / 2
  | .linear => Real.sqrt δ
  | .multiquadric => 0
  | .gaussian => 0

theorem cubic_shift {δ s : ℝ} (hδ : 0 ≤ δ) (hs : 0 ≤ s) :
    |(δ + s) ^ (3 / 2 : ℝ) - s ^ (3 / 2 : ℝ)| ≤ 3 / 2 * δ * Real.sqrt (δ + s) := by
  rw [rpow_three_halves_sqrt (by positivity), rpow_three_halves_sqrt hs]
  have ha := Real.sqrt_nonneg s
  have hab : Real.sqrt s ≤ Real.sqrt (δ + s) := Real.sqrt_le_sqrt (by linarith)
  have h1 := Real.mul_self_sqrt hs
  have h2 := Real.mul_self_sqrt (by positivity : 0 ≤ δ + s)
  set a := Real.sqrt s
  set b := Real.sqrt (δ + s)
  have hd : δ = b * b - a * a := by linarith
  rw [abs_of_nonneg (by nlinarith [mul_nonneg ha ha, mul_self_le_mul_self ha hab])]
  rw [hd]
  nlinarith [mul_nonneg (sub_nonneg.mpr hab) (mul_nonneg ha (sub_nonneg.mpr hab)),
    mul_nonneg (sub_nonneg.mpr hab) (mul_nonneg (ha.trans hab) (sub_nonneg.mpr hab)),
    mul_nonneg (sub_nonneg.mpr hab) (mul_nonneg ha ha)]

theorem linear_shift {δ s : ℝ} (hδ : 0 ≤ δ) (hs : 0 ≤ s) :
    |Real.sqrt (δ + s) - Real.sqrt s| ≤ Real.sqrt δ := by
  have hab : Real.sqrt s ≤ Real.sqrt (δ + s) := Real.sqrt_le_sqrt (by linarith)
  rw [abs_of_nonneg (by linarith), sub_le_iff_le_add]
  have h1 := Real.mul_self_sqrt hs
  have h2 := Real.mul_self_sqrt hδ
  have h3 := Real.sqrt_nonneg s
  have h4 := Real.sqrt_nonneg δ
  exact Real.sqrt_le_iff.mpr ⟨by positivity, by nlinarith [mul_nonneg h3 h4]⟩

theorem log_shift {δ s : ℝ} (hδ : 0 ≤ δ) (hs : 0 ≤ s) :
    |s * (1 / 2) * Real.log (s + δ) - s * (1 / 2) * Real.log s| ≤ δ / 2 := by
  rcases hs.eq_or_lt with rfl | hs
  · simpa using by linarith
  · have hl : Real.log s ≤ Real.log (s + δ) := Real.log_le_log hs (by linarith)
    have h1 : Real.log (s + δ) - Real.log s ≤ δ / s := by
      rw [← Real.log_div (by linarith) hs.ne']
      refine (Real.log_le_sub_one_of_pos (by positivity)).trans (le_of_eq ?_)
      field_simp
      ring
    rw [← mul_sub, abs_of_nonneg (mul_nonneg (by positivity) (by linarith))]
    calc s * (1 / 2) * (Real.log (s + δ) - Real.log s) ≤ s * (1 / 2) * (δ / s) :=
          mul_le_mul_of_nonneg_left h1 (by positivity)
      _ = δ / 2 := by field_simp

/-- The expressions of the models without the shift are the basis functions of the distance. -/
theorem pyPhi_zero (t : Rbf) (g : ℝ) {s : ℝ} (hs : 0 ≤ s) :
    pyPhi t 0 g s = phi t g (Real.sqrt s) := by
  have h1 := Real.mul_self_sqrt hs
  cases t with
  | cubic => simp only [pyPhi, phi, zero_add]; exact rpow_three_halves_sqrt hs
  | thinPlateSpline =>
    simp only [pyPhi, phi, add_zero]
    rcases hs.eq_or_lt with rfl | hs
    · simp
    · have hp := Real.sqrt_pos.mpr hs
      rw [h1, Real.sign_of_pos hp, if_neg one_ne_zero, one_mul, Real.log_sqrt hs.le]
      ring
  | linear => simp only [pyPhi, phi, zero_add]
  | multiquadric => simp only [pyPhi, phi]; rw [h1, add_comm]
  | gaussian => simp only [pyPhi, phi]; rw [mul_assoc, h1]

theorem pyPhi_near (t : Rbf) {δ : ℝ} (g : ℝ) (hδ : 0 ≤ δ) {s : ℝ} (hs : 0 ≤ s) :
    |pyPhi t δ g s - phi t g (Real.sqrt s)| ≤ shiftError t δ s := by
  rw [← pyPhi_zero t g hs]
  cases t with
  | cubic => simp only [pyPhi, shiftError, zero_add]; exact cubic_shift hδ hs
  | thinPlateSpline => simp only [pyPhi, shiftError, add_zero]; exact log_shift hδ hs
  | linear => simp only [pyPhi, shiftError, zero_add]; exact linear_shift hδ hs
  | multiquadric => simp [pyPhi, shiftError]
  | gaussian => simp [pyPhi, shiftError]

/-- The polynomial part of the interpolant. -/
theorem evaluate_split (t : Rbf) (δ g : ℝ) (n k : ℕ) (nodes : ℕ → ℕ → ℝ) (lam h : ℕ → ℝ)
    (x : ℕ → ℝ) :
    pyRbf t δ g n k nodes (lambdaH k lam h) x - evaluateRbf t g n k nodes lam h x =
      ∑ i ∈ range k, lam i * (pyPhi t δ g (sqDist n x (nodes i)) -
        phi t g (Real.sqrt (sqDist n x (nodes i)))) := by
  have hr : ∑ i ∈ range k, lambdaH k lam h i * pyPhi t δ g (sqDist n x (nodes i)) =
      ∑ i ∈ range k, lam i * pyPhi t δ g (sqDist n x (nodes i)) :=
    sum_congr rfl fun i hi => by rw [lambdaH, if_pos (mem_range.mp hi)]
  have hh : ∀ i, lambdaH k lam h (k + i) = h i := fun i => by
    rw [lambdaH, if_neg (by omega), Nat.add_sub_cancel_left]
  have hh0 : lambdaH k lam h k = h 0 := hh 0
  simp only [mul_sub, sum_sub_distrib, ← euclid_eq_sqrt]
  cases t <;> simp only [pyRbf, evaluateRbf, sizeP, hr, hh, hh0] <;> simp

/-- **C56** The objective of the model that minimizes the interpolant is the interpolant, up to the
effect of the distance shift: an explicit bound at every point, for every basis function,
every number of nodes and every coefficients. -/
theorem C56_min_rbf_objective (t : Rbf) {δ : ℝ} (hδ : 0 ≤ δ) (g : ℝ) (n k : ℕ)
    (nodes : ℕ → ℕ → ℝ) (lam h x : ℕ → ℝ) :
    |pyRbf t δ g n k nodes (lambdaH k lam h) x - evaluateRbf t g n k nodes lam h x| ≤
      ∑ i ∈ range k, |lam i| * shiftError t δ (sqDist n x (nodes i)) := by
  rw [evaluate_split]
  refine (abs_sum_le_sum_abs _ _).trans (sum_le_sum fun i _ => ?_)
  rw [abs_mul]
  exact mul_le_mul_of_nonneg_left (pyPhi_near t g hδ (sqDist_nonneg _ _ _)) (abs_nonneg _)

theorem distanceShift_nonneg (t : Rbf) : 0 ≤ distanceShift t := by
  cases t <;> simp [distanceShift]

/-- **C56** With the shifts of the code, the objective of the model that minimizes the interpolant differs
from it by at most: for the linear basis function one millionth of the sum of the absolute coefficients, for
thin plate splines half of 1e-14 times it, for cubics 1.5e-14 times the sum weighted with one plus the
distance to the node; for the others it is the interpolant. -/
theorem C56_actual_shift (t : Rbf) (g : ℝ) (n k : ℕ) (nodes : ℕ → ℕ → ℝ) (lam h x : ℕ → ℝ) :
    |pyRbf t (distanceShift t) g n k nodes (lambdaH k lam h) x - evaluateRbf t g n k nodes lam h x| ≤
      ∑ i ∈ range k, |lam i| *
        (match t with
          | .cubic => 1.5e-14 * (1 + Real.sqrt (∑ j ∈ range n, (x j - nodes i j) ^ 2))
          | .thinPlateSpline => 0.5e-14
          | .linear => 1e-6
          | .multiquadric | .gaussian => 0) := by
  refine (C56_min_rbf_objective t (distanceShift_nonneg t) g n k nodes lam h x).trans
    (sum_le_sum fun i _ => mul_le_mul_of_nonneg_left ?_ (abs_nonneg _))
  cases t with
  | cubic =>
    simp only [shiftError, distanceShift]
    have hs := sqDist_nonneg n x (nodes i)
    have h1 : Real.sqrt (1 / 10 ^ 14 + sqDist n x (nodes i)) ≤ 1 + Real.sqrt (sqDist n x (nodes i)) := by
      refine Real.sqrt_le_iff.mpr ⟨by positivity, ?_⟩
      have := Real.mul_self_sqrt hs
      have h0 := Real.sqrt_nonneg (sqDist n x (nodes i))
      norm_num
      nlinarith
    unfold sqDist at h1 ⊢
    norm_num at h1 ⊢
    linarith
  | thinPlateSpline => simp only [shiftError, distanceShift]; norm_num
  | linear =>
    simp only [shiftError, distanceShift]
    rw [show (1 / 10 ^ 12 : ℝ) = (1e-6) ^ 2 by norm_num, Real.sqrt_sq (by norm_num)]
  | multiquadric => simp [shiftError]
  | gaussian => simp [shiftError]

/-- **C56** The bound for the linear basis function is attained: at a node, its own basis function counts
one millionth instead of zero. -/
theorem C56_shift_at_node (g : ℝ) : pyPhi .linear (distanceShift .linear) g 0 = 1e-6 ∧
    phi .linear g 0 = 0 ∧ 0 < pyPhi .cubic (distanceShift .cubic) g 0 ∧
    pyPhi .thinPlateSpline (distanceShift .thinPlateSpline) g 0 = 0 := by
  refine ⟨?_, by simp [phi], ?_, by simp [pyPhi]⟩
  · simp only [pyPhi, distanceShift, add_zero]
    rw [show (1 / 10 ^ 12 : ℝ) = (1e-6) ^ 2 by norm_num, Real.sqrt_sq (by norm_num)]
  · simp only [pyPhi, distanceShift]
    positivity

/-- **C56** Without the shift the objective is exactly the interpolant; for the multiquadric and the
gaussian basis functions it is so for every shift. -/
theorem C56_min_rbf_exact (t : Rbf) (δ g : ℝ) (n k : ℕ) (nodes : ℕ → ℕ → ℝ) (lam h x : ℕ → ℝ)
    (ht : δ = 0 ∨ t = .multiquadric ∨ t = .gaussian) :
    pyRbf t δ g n k nodes (lambdaH k lam h) x = evaluateRbf t g n k nodes lam h x := by
  rw [← sub_eq_zero, evaluate_split]
  refine sum_eq_zero fun i _ => ?_
  rw [mul_eq_zero]
  right
  rw [sub_eq_zero, ← pyPhi_zero t g (sqDist_nonneg _ _ _)]
  rcases ht with rfl | rfl | rfl <;> rfl

/-! ## The quadratic forms -/

/-- The sum over all pairs with the doubled upper triangle is the sum with the whole matrix. -/
theorem ainv_sum {B : ℕ → ℕ → ℝ} (hB : ∀ i j, B i j = B j i) (u : ℕ → ℝ) (m : ℕ) :
    ∑ i ∈ range m, ∑ j ∈ range m, pyAinv B i j * (u i * u j) =
      ∑ i ∈ range m, ∑ j ∈ range m, B i j * (u i * u j) := by
  have hA : ∀ i j, pyAinv B i j = if i < j then 2 * B i j else if i = j then B i i else 0 := by
    intro i j
    unfold pyAinv
    rcases lt_trichotomy i j with h | rfl | h
    · rw [if_pos h.le, if_pos h, if_neg h.ne]
      by_cases hb : |B i j| ≠ 0
      · rw [if_pos hb]
      · rw [if_neg hb]; rw [not_not, abs_eq_zero] at hb; rw [hb, mul_zero]
    · rw [if_pos le_rfl, if_neg (lt_irrefl _), if_pos rfl, if_pos rfl]
      by_cases hb : |B i i| ≠ 0
      · rw [if_pos hb]
      · rw [if_neg hb]; rw [not_not, abs_eq_zero] at hb; exact hb.symm
    · rw [if_neg (by omega), if_neg (by omega), if_neg (by omega)]
  induction m with
  | zero => simp
  | succ m ih =>
    have e : ∀ f : ℕ → ℕ → ℝ, ∑ i ∈ range (m + 1), ∑ j ∈ range (m + 1), f i j =
        ∑ i ∈ range m, ∑ j ∈ range m, f i j + ∑ i ∈ range m, f i m +
          (∑ j ∈ range m, f m j + f m m) := by
      intro f
      rw [sum_range_succ, sum_range_succ (fun j => f m j)]
      congr 1
      rw [← sum_add_distrib]
      exact sum_congr rfl fun i _ => sum_range_succ _ _
    rw [e, e, ih]
    have h1 : ∑ i ∈ range m, pyAinv B i m * (u i * u m) =
        ∑ i ∈ range m, B i m * (u i * u m) + ∑ j ∈ range m, B m j * (u m * u j) := by
      rw [← sum_add_distrib]
      refine sum_congr rfl fun i hi => ?_
      rw [hA, if_pos (mem_range.mp hi), hB m i]
      ring
    have h2 : ∑ j ∈ range m, pyAinv B m j * (u m * u j) = 0 := by
      refine sum_eq_zero fun j hj => ?_
      have := mem_range.mp hj
      rw [hA, if_neg (by omega), if_neg (by omega), zero_mul]
    have h3 : pyAinv B m m = B m m := by rw [hA, if_neg (lt_irrefl _), if_pos rfl]
    rw [h1, h2, h3]
    ring

theorem pyProd_zero (t : Rbf) (g : ℝ) {s r : ℝ} (hs : 0 ≤ s) (hr : 0 ≤ r) :
    pyProd t 0 g s r = phi t g (Real.sqrt s) * phi t g (Real.sqrt r) := by
  rw [← pyPhi_zero t g hs, ← pyPhi_zero t g hr]
  cases t with
  | cubic =>
    simp only [pyPhi, pyProd, zero_add]
    exact Real.mul_rpow hs hr
  | thinPlateSpline => simp only [pyPhi, pyProd]; ring
  | linear => simp only [pyPhi, pyProd, zero_add]; exact Real.sqrt_mul hs r
  | multiquadric => rfl
  | gaussian => simp only [pyPhi, pyProd]; rw [← Real.exp_add]; ring_nf

theorem quadForm_eq (m : ℕ) (B : ℕ → ℕ → ℝ) (u : ℕ → ℝ) :
    quadForm m B u = ∑ i ∈ range m, ∑ j ∈ range m, B i j * (u i * u j) := by
  unfold quadForm
  rw [sum_comm]
  refine sum_congr rfl fun j _ => ?_
  rw [sum_mul]
  exact sum_congr rfl fun i _ => by ring

theorem pyAinv_lower (B : ℕ → ℕ → ℝ) {i j : ℕ} (h : j < i) : pyAinv B i j = 0 := by
  unfold pyAinv; rw [if_neg (by omega)]

theorem uPi_lt {t : Rbf} {g : ℝ} {n k : ℕ} {nodes : ℕ → ℕ → ℝ} {x : ℕ → ℝ} {i : ℕ} (hi : i < k) :
    uPi t g n k nodes x i = phi t g (Real.sqrt (sqDist n x (nodes i))) := by
  rw [uPi, if_pos hi, euclid_eq_sqrt]

theorem uPi_ge1 {t : Rbf} (ht : sizeP t n = n + 1) {g : ℝ} {k : ℕ} {nodes : ℕ → ℕ → ℝ} {x : ℕ → ℝ}
    (i : ℕ) : uPi t g n k nodes x (k + i) = if i = n then 1 else x i := by
  rw [uPi, if_neg (by omega), if_pos ht, Nat.add_sub_cancel_left]

/-- Block products with an upper triangular matrix. -/
theorem pyQuad_zero (t : Rbf) (g : ℝ) (n k : ℕ) (nodes : ℕ → ℕ → ℝ) {A : ℕ → ℕ → ℝ}
    (hA : ∀ i j, j < i → A i j = 0) (x : ℕ → ℝ) :
    pyQuad t 0 g n k nodes A x = ∑ i ∈ range (k + sizeP t n), ∑ j ∈ range (k + sizeP t n),
      A i j * (uPi t g n k nodes x i * uPi t g n k nodes x j) := by
  have hkk : ∑ i ∈ range k, ∑ j ∈ range k,
      A i j * pyProd t 0 g (sqDist n x (nodes i)) (sqDist n x (nodes j)) =
      ∑ i ∈ range k, ∑ j ∈ range k,
        A i j * (uPi t g n k nodes x i * uPi t g n k nodes x j) := by
    refine sum_congr rfl fun i hi => sum_congr rfl fun j hj => ?_
    rw [pyProd_zero t g (sqDist_nonneg _ _ _) (sqDist_nonneg _ _ _), uPi_lt (mem_range.mp hi),
      uPi_lt (mem_range.mp hj)]
  have hphi : ∀ i ∈ range k, pyPhi t 0 g (sqDist n x (nodes i)) = uPi t g n k nodes x i := by
    intro i hi
    rw [pyPhi_zero t g (sqDist_nonneg _ _ _), uPi_lt (mem_range.mp hi)]
  have hlow : ∀ p, ∑ i ∈ range p, ∑ j ∈ range k,
      A (k + i) j * (uPi t g n k nodes x (k + i) * uPi t g n k nodes x j) = 0 := fun p =>
    sum_eq_zero fun i _ => sum_eq_zero fun j hj => by
      rw [hA _ _ (by have := mem_range.mp hj; omega), zero_mul]
  have split : ∀ p, ∑ i ∈ range (k + p), ∑ j ∈ range (k + p),
      A i j * (uPi t g n k nodes x i * uPi t g n k nodes x j) =
      ∑ i ∈ range k, ∑ j ∈ range k,
        A i j * (uPi t g n k nodes x i * uPi t g n k nodes x j) +
      ∑ i ∈ range k, ∑ j ∈ range p,
        A i (k + j) * (uPi t g n k nodes x i * uPi t g n k nodes x (k + j)) +
      ∑ i ∈ range p, ∑ j ∈ range p,
        A (k + i) (k + j) * (uPi t g n k nodes x (k + i) * uPi t g n k nodes x (k + j)) := by
    intro p
    rw [sum_range_add]
    simp only [sum_range_add _ k p, sum_add_distrib]
    rw [hlow]
    ring
  have deg1 : sizeP t n = n + 1 →
      ∑ i ∈ range (k + (n + 1)), ∑ j ∈ range (k + (n + 1)),
      A i j * (uPi t g n k nodes x i * uPi t g n k nodes x j) =
      ∑ i ∈ range k, ∑ j ∈ range k,
        A i j * (uPi t g n k nodes x i * uPi t g n k nodes x j) +
      ∑ i ∈ range k, ∑ j ∈ range n, A i (k + j) * x j * uPi t g n k nodes x i +
      ∑ i ∈ range k, A i (k + n) * uPi t g n k nodes x i +
      ∑ i ∈ range n, ∑ j ∈ range n, A (k + i) (k + j) * x i * x j +
      ∑ i ∈ range n, A (k + i) (k + n) * x i + A (k + n) (k + n) := by
    intro ht
    have hu : ∀ i ∈ range n, uPi t g n k nodes x (k + i) = x i := fun i hi => by
      rw [uPi_ge1 ht, if_neg (by have := mem_range.mp hi; omega)]
    have hun : uPi t g n k nodes x (k + n) = 1 := by rw [uPi_ge1 ht, if_pos rfl]
    rw [split]
    have e1 : ∑ i ∈ range k, ∑ j ∈ range (n + 1),
        A i (k + j) * (uPi t g n k nodes x i * uPi t g n k nodes x (k + j)) =
        ∑ i ∈ range k, ∑ j ∈ range n, A i (k + j) * x j * uPi t g n k nodes x i +
        ∑ i ∈ range k, A i (k + n) * uPi t g n k nodes x i := by
      rw [← sum_add_distrib]
      refine sum_congr rfl fun i _ => ?_
      rw [sum_range_succ, hun]
      congr 1
      · exact sum_congr rfl fun j hj => by rw [hu j hj]; ring
      · ring
    have e2 : ∑ i ∈ range (n + 1), ∑ j ∈ range (n + 1),
        A (k + i) (k + j) * (uPi t g n k nodes x (k + i) * uPi t g n k nodes x (k + j)) =
        ∑ i ∈ range n, ∑ j ∈ range n, A (k + i) (k + j) * x i * x j +
        ∑ i ∈ range n, A (k + i) (k + n) * x i + A (k + n) (k + n) := by
      rw [sum_range_succ]
      congr 1
      · rw [← sum_add_distrib]
        refine sum_congr rfl fun i hi => ?_
        rw [sum_range_succ, hun, hu i hi]
        congr 1
        · exact sum_congr rfl fun j hj => by rw [hu j hj]; ring
        · ring
      · rw [sum_range_succ, hun, sum_eq_zero, zero_add]
        · ring
        · intro j hj
          rw [hA _ _ (by have := mem_range.mp hj; omega), zero_mul]
    rw [e1, e2]
    ring
  have p1 : ∑ i ∈ range k, ∑ j ∈ range n, A i (k + j) * x j * pyPhi t 0 g (sqDist n x (nodes i)) =
      ∑ i ∈ range k, ∑ j ∈ range n, A i (k + j) * x j * uPi t g n k nodes x i :=
    sum_congr rfl fun i hi => sum_congr rfl fun j _ => by rw [hphi i hi]
  have p2 : ∀ c, ∑ i ∈ range k, A i c * pyPhi t 0 g (sqDist n x (nodes i)) =
      ∑ i ∈ range k, A i c * uPi t g n k nodes x i := fun c =>
    sum_congr rfl fun i hi => by rw [hphi i hi]
  cases t with
  | cubic => simp only [pyQuad]; rw [hkk, p1, p2]; exact (deg1 rfl).symm
  | thinPlateSpline => simp only [pyQuad]; rw [hkk, p1, p2]; exact (deg1 rfl).symm
  | linear =>
    have h1 : uPi .linear g n k nodes x k = 1 := by
      unfold uPi; simp only [lt_irrefl, if_false, Nat.sub_self]
      split
      · rename_i h; simp only [sizeP] at h; rw [if_pos (by omega)]
      · rfl
    simp only [pyQuad, sizeP]
    rw [hkk, p2, split 1]
    simp only [sum_range_one, add_zero, h1, mul_one]
  | multiquadric =>
    have h1 : uPi .multiquadric g n k nodes x k = 1 := by
      unfold uPi; simp only [lt_irrefl, if_false, Nat.sub_self]
      split
      · rename_i h; simp only [sizeP] at h; rw [if_pos (by omega)]
      · rfl
    simp only [pyQuad, sizeP]
    rw [hkk, p2, split 1]
    simp only [sum_range_one, add_zero, h1, mul_one]
  | gaussian => simp only [pyQuad, sizeP]; exact hkk

/-- **C56** The quadratic expression written with the doubled upper triangle, block by block, is the
quadratic form of the whole matrix in the vector `(phi(distances), x, 1)`, for every symmetric matrix
(without the shift). -/
theorem C56_quadratic_form (t : Rbf) (g : ℝ) (n k : ℕ) (nodes : ℕ → ℕ → ℝ) {B : ℕ → ℕ → ℝ}
    (hB : ∀ i j, B i j = B j i) (x : ℕ → ℝ) :
    pyQuad t 0 g n k nodes (pyAinv B) x = quadForm (k + sizeP t n) B (uPi t g n k nodes x) := by
  rw [pyQuad_zero t g n k nodes (fun i j h => pyAinv_lower B h), ainv_sum hB, quadForm_eq]

/-- Largest effect of the shift on the expression of a product of two basis functions. -/
noncomputable def prodError (t : Rbf) (δ g s r : ℝ) : ℝ :=
  match t with
  | .cubic => 3 / 2 * δ * Real.sqrt (δ + s * r)
  | .thinPlateSpline => δ / 2 * (|pyPhi .thinPlateSpline δ g r| + |pyPhi .thinPlateSpline 0 g s|)
  | .linear => Real.sqrt δ
  | .multiquadric => 0
  | .gaussian => 0

theorem pyProd_near (t : Rbf) {δ : ℝ} (hδ : 0 ≤ δ) (g : ℝ) {s r : ℝ} (hs : 0 ≤ s) (hr : 0 ≤ r) :
    |pyProd t δ g s r - pyProd t 0 g s r| ≤ prodError t δ g s r := by
  cases t with
  | cubic => simp only [pyProd, prodError, zero_add]; exact cubic_shift hδ (mul_nonneg hs hr)
  | thinPlateSpline =>
    have hp : ∀ d, pyProd .thinPlateSpline d g s r =
        pyPhi .thinPlateSpline d g s * pyPhi .thinPlateSpline d g r := by
      intro d; simp only [pyProd, pyPhi]; ring
    rw [hp, hp, show pyPhi .thinPlateSpline δ g s * pyPhi .thinPlateSpline δ g r -
      pyPhi .thinPlateSpline 0 g s * pyPhi .thinPlateSpline 0 g r =
      (pyPhi .thinPlateSpline δ g s - pyPhi .thinPlateSpline 0 g s) * pyPhi .thinPlateSpline δ g r +
      pyPhi .thinPlateSpline 0 g s *
        (pyPhi .thinPlateSpline δ g r - pyPhi .thinPlateSpline 0 g r) by ring]
    refine (abs_add_le _ _).trans ?_
    rw [abs_mul, abs_mul]
    have h1 := pyPhi_near .thinPlateSpline g hδ hs
    have h2 := pyPhi_near .thinPlateSpline g hδ hr
    rw [← pyPhi_zero .thinPlateSpline g hs] at h1
    rw [← pyPhi_zero .thinPlateSpline g hr] at h2
    have h3 := mul_le_mul_of_nonneg_right h1 (abs_nonneg (pyPhi .thinPlateSpline δ g r))
    have h4 := mul_le_mul_of_nonneg_left h2 (abs_nonneg (pyPhi .thinPlateSpline 0 g s))
    simp only [shiftError] at h3 h4
    simp only [prodError]
    linarith
  | linear => simp only [pyProd, prodError, zero_add]; exact linear_shift hδ (mul_nonneg hs hr)
  | multiquadric => simp [pyProd, prodError]
  | gaussian => simp [pyProd, prodError]

/-- Effect of the shift on the quadratic expression. -/
noncomputable def quadError (t : Rbf) (δ g : ℝ) (n k : ℕ) (nodes : ℕ → ℕ → ℝ) (A : ℕ → ℕ → ℝ)
    (x : ℕ → ℝ) : ℝ :=
  ∑ i ∈ range k, ∑ j ∈ range k,
    |A i j| * prodError t δ g (sqDist n x (nodes i)) (sqDist n x (nodes j)) +
  ∑ i ∈ range k, ∑ c ∈ range (sizeP t n), |A i (k + c) * (if sizeP t n = n + 1 ∧ c < n then x c else 1)| *
    shiftError t δ (sqDist n x (nodes i))

theorem sum_near {ι : Type} {s : Finset ι} {a b b' e : ι → ℝ} (h : ∀ i ∈ s, |b i - b' i| ≤ e i) :
    |∑ i ∈ s, a i * b i - ∑ i ∈ s, a i * b' i| ≤ ∑ i ∈ s, |a i| * e i := by
  rw [← sum_sub_distrib]
  refine (abs_sum_le_sum_abs _ _).trans (sum_le_sum fun i hi => ?_)
  rw [← mul_sub, abs_mul]
  exact mul_le_mul_of_nonneg_left (h i hi) (abs_nonneg _)

theorem pyQuad_near (t : Rbf) {δ : ℝ} (hδ : 0 ≤ δ) (g : ℝ) (n k : ℕ) (nodes : ℕ → ℕ → ℝ)
    (A : ℕ → ℕ → ℝ) (x : ℕ → ℝ) :
    |pyQuad t δ g n k nodes A x - pyQuad t 0 g n k nodes A x| ≤ quadError t δ g n k nodes A x := by
  have hphi : ∀ i, |pyPhi t δ g (sqDist n x (nodes i)) - pyPhi t 0 g (sqDist n x (nodes i))| ≤
      shiftError t δ (sqDist n x (nodes i)) := fun i => by
    rw [pyPhi_zero t g (sqDist_nonneg _ _ _)]; exact pyPhi_near t g hδ (sqDist_nonneg _ _ _)
  have hkk : |∑ i ∈ range k, ∑ j ∈ range k,
        A i j * pyProd t δ g (sqDist n x (nodes i)) (sqDist n x (nodes j)) -
      ∑ i ∈ range k, ∑ j ∈ range k,
        A i j * pyProd t 0 g (sqDist n x (nodes i)) (sqDist n x (nodes j))| ≤
      ∑ i ∈ range k, ∑ j ∈ range k,
        |A i j| * prodError t δ g (sqDist n x (nodes i)) (sqDist n x (nodes j)) := by
    rw [← sum_sub_distrib]
    refine (abs_sum_le_sum_abs _ _).trans (sum_le_sum fun i _ => sum_near fun j _ => ?_)
    exact pyProd_near t hδ g (sqDist_nonneg _ _ _) (sqDist_nonneg _ _ _)
  have hone : ∀ c, |∑ i ∈ range k, A i c * pyPhi t δ g (sqDist n x (nodes i)) -
      ∑ i ∈ range k, A i c * pyPhi t 0 g (sqDist n x (nodes i))| ≤
      ∑ i ∈ range k, |A i c| * shiftError t δ (sqDist n x (nodes i)) := fun c =>
    sum_near fun i _ => hphi i
  have hx : |∑ i ∈ range k, ∑ j ∈ range n, A i (k + j) * x j * pyPhi t δ g (sqDist n x (nodes i)) -
      ∑ i ∈ range k, ∑ j ∈ range n, A i (k + j) * x j * pyPhi t 0 g (sqDist n x (nodes i))| ≤
      ∑ i ∈ range k, ∑ j ∈ range n, |A i (k + j) * x j| *
        shiftError t δ (sqDist n x (nodes i)) := by
    rw [← sum_sub_distrib]
    exact (abs_sum_le_sum_abs _ _).trans (sum_le_sum fun i _ => sum_near fun j _ => hphi i)
  have deg1 : sizeP t n = n + 1 →
      ∑ i ∈ range k, ∑ c ∈ range (sizeP t n),
        |A i (k + c) * (if sizeP t n = n + 1 ∧ c < n then x c else 1)| *
          shiftError t δ (sqDist n x (nodes i)) =
      ∑ i ∈ range k, ∑ j ∈ range n, |A i (k + j) * x j| *
        shiftError t δ (sqDist n x (nodes i)) +
      ∑ i ∈ range k, |A i (k + n)| * shiftError t δ (sqDist n x (nodes i)) := by
    intro ht
    rw [← sum_add_distrib]
    refine sum_congr rfl fun i _ => ?_
    rw [ht, sum_range_succ, if_neg (by omega), mul_one]
    congr 1
    refine sum_congr rfl fun j hj => ?_
    rw [if_pos ⟨rfl, mem_range.mp hj⟩]
  have tri : ∀ a a' b b' c c' d : ℝ, |(a + b + c + d) - (a' + b' + c' + d)| ≤
      |a - a'| + (|b - b'| + |c - c'|) := by
    intro a a' b b' c c' d
    have h1 := abs_add_le (a - a') ((b - b') + (c - c'))
    have h2 := abs_add_le (b - b') (c - c')
    rw [show (a + b + c + d) - (a' + b' + c' + d) = (a - a') + ((b - b') + (c - c')) by ring]
    linarith
  unfold quadError
  cases t with
  | cubic =>
    rw [deg1 rfl]
    simp only [pyQuad]
    refine le_trans (le_of_eq ?_) ((tri _ _ _ _ _ _ (∑ i ∈ range n, ∑ j ∈ range n,
      A (k + i) (k + j) * x i * x j + ∑ i ∈ range n, A (k + i) (k + n) * x i +
      A (k + n) (k + n))).trans (add_le_add hkk (add_le_add hx (hone (k + n)))))
    congr 1; ring
  | thinPlateSpline =>
    rw [deg1 rfl]
    simp only [pyQuad]
    refine le_trans (le_of_eq ?_) ((tri _ _ _ _ _ _ (∑ i ∈ range n, ∑ j ∈ range n,
      A (k + i) (k + j) * x i * x j + ∑ i ∈ range n, A (k + i) (k + n) * x i +
      A (k + n) (k + n))).trans (add_le_add hkk (add_le_add hx (hone (k + n)))))
    congr 1; ring
  | linear =>
    have e : ∑ i ∈ range k, ∑ c ∈ range (sizeP .linear n),
        |A i (k + c) * (if sizeP .linear n = n + 1 ∧ c < n then x c else 1)| *
          shiftError .linear δ (sqDist n x (nodes i)) =
        ∑ i ∈ range k, |A i k| * shiftError .linear δ (sqDist n x (nodes i)) := by
      refine sum_congr rfl fun i _ => ?_
      rw [show sizeP .linear n = 1 from rfl, sum_range_one, add_zero, if_neg (by omega), mul_one]
    rw [e]
    simp only [pyQuad]
    have h := tri (∑ i ∈ range k, ∑ j ∈ range k, A i j * pyProd .linear δ g (sqDist n x (nodes i))
        (sqDist n x (nodes j))) (∑ i ∈ range k, ∑ j ∈ range k, A i j *
        pyProd .linear 0 g (sqDist n x (nodes i)) (sqDist n x (nodes j)))
      (∑ i ∈ range k, A i k * pyPhi .linear δ g (sqDist n x (nodes i)))
      (∑ i ∈ range k, A i k * pyPhi .linear 0 g (sqDist n x (nodes i))) 0 0 (A k k)
    simp only [add_zero, sub_self, abs_zero] at h
    exact h.trans (add_le_add hkk (hone k))
  | multiquadric => simp [pyQuad, prodError, shiftError, pyPhi, pyProd]
  | gaussian => simp [pyQuad, prodError, shiftError, pyProd]

/-- **C56** The matrix given to the models is symmetric: the inverse of a symmetric matrix computed by
`get_matrix_inverse` (exact arithmetic, entries below `eps_zero` replaced by 0). -/
theorem C56_inverse_symmetric {inv : ℕ → (ℕ → ℕ → ℝ) → Option (ℕ → ℕ → ℝ)} (hinv : InverseOk inv)
    {t : Rbf} {eps : ℝ} {n k : ℕ} {A B : ℕ → ℕ → ℝ} {groups : List (List ℕ)}
    (hA : ∀ i j, A i j = A j i) (hb : matrixInverse inv t eps n k A groups = some B) (i j : ℕ) :
    B i j = B j i := by
  unfold matrixInverse at hb
  dsimp only at hb
  split at hb
  · cases hb
  · rename_i C hC
    simp only [Option.some.injEq] at hb
    subst hb
    set kept := keptIndices t n k groups
    have hi := hinv _ _ _ hC
    have hsymm : ∀ a < kept.length, ∀ b < kept.length, C a b = C b a := by
      let M : Matrix (Fin kept.length) (Fin kept.length) ℝ :=
        fun a b => A (kept.getD a 0) (kept.getD b 0)
      let D : Matrix (Fin kept.length) (Fin kept.length) ℝ := fun a b => C a b
      have hMD : M * D = 1 := by
        ext a b
        rw [Matrix.mul_apply, Matrix.one_apply]
        have := hi a a.2 b b.2
        rw [Finset.sum_range] at this
        rw [this]
        simp only [Fin.ext_iff]
      have hMT : M.transpose = M := by
        ext a b
        exact hA _ _
      have hDM : D.transpose * M = 1 := by
        have := congrArg Matrix.transpose hMD
        rwa [Matrix.transpose_mul, hMT, Matrix.transpose_one] at this
      have hDD : D.transpose = D := by
        calc D.transpose = D.transpose * (M * D) := by rw [hMD, Matrix.mul_one]
          _ = D := by rw [← Matrix.mul_assoc, hDM, Matrix.one_mul]
      intro a ha b hb
      exact congrFun (congrFun hDD ⟨b, hb⟩) ⟨a, ha⟩
    refine congrArg (zeroTiny eps) ?_
    by_cases h1 : i ∈ kept <;> by_cases h2 : j ∈ kept
    · rw [if_pos ⟨h1, h2⟩, if_pos ⟨h2, h1⟩]
      exact hsymm _ (List.idxOf_lt_length_iff.mpr h1) _ (List.idxOf_lt_length_iff.mpr h2)
    · rw [if_neg (fun h => h2 h.2), if_neg (fun h => h2 h.1)]
    · rw [if_neg (fun h => h1 h.1), if_neg (fun h => h1 h.2)]
    · rw [if_neg (fun h => h1 h.1), if_neg (fun h => h1 h.2)]

theorem pyPhi0_eq (t : Rbf) {g : ℝ} (hg : 0 ≤ g) : pyPhi0 t g = phi t g 0 := by
  cases t <;> simp [pyPhi0, phi, Real.sqrt_mul_self hg]

theorem pyOneOverMu_eq (t : Rbf) (δ g : ℝ) (n k : ℕ) (nodes : ℕ → ℕ → ℝ) (B : ℕ → ℕ → ℝ)
    (x : ℕ → ℝ) : pyOneOverMu t δ g n k nodes B x =
      muSign t * (pyQuad t δ g n k nodes (pyAinv B) x - pyPhi0 t g) := by
  cases t <;> simp [pyOneOverMu, muSign, degreePolynomial]

/-- **C56** The model that maximizes `1/mu` ranks the points as the objective that the sampling and
genetic searches minimize: for a symmetric matrix and a non-negative shape parameter, its objective is
minus that of `GutmannMukObj` up to a constant, up to an explicit effect of the shift. -/
theorem C56_one_over_mu (t : Rbf) {δ g : ℝ} (hδ : 0 ≤ δ) (hg : 0 ≤ g) (n k : ℕ)
    (nodes : ℕ → ℕ → ℝ) {B : ℕ → ℕ → ℝ} (hB : ∀ i j, B i j = B j i) (x : ℕ → ℝ) :
    |pyOneOverMu t δ g n k nodes B x -
      (-gutmannMuk t g n k nodes B x - 2 * (muSign t * phi t g 0))| ≤
      quadError t δ g n k nodes (pyAinv B) x := by
  have h := pyQuad_near t hδ g n k nodes (pyAinv B) x
  rw [C56_quadratic_form t g n k nodes hB x] at h
  rw [pyOneOverMu_eq, gutmannMuk, pyPhi0_eq t hg]
  have e : muSign t * (pyQuad t δ g n k nodes (pyAinv B) x - phi t g 0) -
      (- -(muSign t * (quadForm (k + sizeP t n) B (uPi t g n k nodes x) + phi t g 0)) -
        2 * (muSign t * phi t g 0)) =
      muSign t * (pyQuad t δ g n k nodes (pyAinv B) x -
        quadForm (k + sizeP t n) B (uPi t g n k nodes x)) := by ring
  rw [e, abs_mul]
  have hs : |muSign t| = 1 := by
    have h1 := sign_sq t
    have h2 : |muSign t| * |muSign t| = 1 := by rw [← abs_mul, h1, abs_one]
    nlinarith [abs_nonneg (muSign t)]
  rw [hs, one_mul]
  exact h

/-- **C56** Without the shift, a point is better for the model that maximizes `1/mu` exactly if it is
better for `GutmannMukObj`. -/
theorem C56_one_over_mu_ranking (t : Rbf) {g : ℝ} (hg : 0 ≤ g) (n k : ℕ)
    (nodes : ℕ → ℕ → ℝ) {B : ℕ → ℕ → ℝ} (hB : ∀ i j, B i j = B j i) (x y : ℕ → ℝ) :
    pyOneOverMu t 0 g n k nodes B x ≤ pyOneOverMu t 0 g n k nodes B y ↔
      gutmannMuk t g n k nodes B y ≤ gutmannMuk t g n k nodes B x := by
  simp only [pyOneOverMu_eq, gutmannMuk, pyPhi0_eq t hg, C56_quadratic_form t g n k nodes hB]
  constructor <;> intro h <;> nlinarith

/-- **C56** Without the shift, the objective of the model that maximizes `h_k` is minus that of
`GutmannHkObj` wherever the interpolant differs enough from the target (`GutmannHkObj` bounds the
denominator below by `eps_zero`, the model does not). -/
theorem C56_h_k (t : Rbf) {g eps : ℝ} (hg : 0 ≤ g) (n k : ℕ) (nodes : ℕ → ℕ → ℝ)
    (lam h : ℕ → ℝ) {B : ℕ → ℕ → ℝ} (hB : ∀ i j, B i j = B j i) (fstar : ℝ) (x : ℕ → ℝ)
    (hx : eps ≤ (evaluateRbf t g n k nodes lam h x - fstar) ^ 2) :
    pyHk t 0 g n k nodes lam h B fstar x = -gutmannHk t g eps n k nodes lam h B fstar x := by
  rw [pyHk, gutmannHk, pyOneOverMu_eq, pyPhi0_eq t hg, C56_quadratic_form t g n k nodes hB,
    C56_min_rbf_exact t 0 g n k nodes lam h x (.inl rfl), max_eq_left hx, neg_neg]

/-! ## Feasible sets -/

theorem cat_sum {n : ℕ} {e : List ℕ} (hn : e.Nodup) (hlt : ∀ c ∈ e, c < n) (x : ℕ → ℝ) :
    ∑ j ∈ range n, (if j ∈ e then 1 else 0) * x j = ∑ j ∈ e.toFinset, x j := by
  have : ∀ j, (if j ∈ e then (1 : ℝ) else 0) * x j = if j ∈ e.toFinset then x j else 0 := by
    intro j
    by_cases h : j ∈ e <;> simp [h]
  simp only [this]
  rw [← sum_filter]
  congr 1
  ext j
  simp only [mem_filter, mem_range, List.mem_toFinset]
  exact ⟨fun h => h.2, fun h => ⟨hlt j h, h⟩⟩

/-- Among numbers that are 0 or 1, the sum is 1 exactly if one of them is 1 and the others are 0. -/
theorem sum_one_iff {s : Finset ℕ} {x : ℕ → ℝ} (h : ∀ i ∈ s, x i = 0 ∨ x i = 1) :
    ∑ i ∈ s, x i = 1 ↔ ∃ c ∈ s, ∀ i ∈ s, x i = if i = c then 1 else 0 := by
  constructor
  · intro hs
    have hex : ∃ c ∈ s, x c ≠ 0 := by
      by_contra hc
      push Not at hc
      rw [sum_eq_zero hc] at hs
      exact zero_ne_one hs
    obtain ⟨c, hc, hx⟩ := hex
    have hc1 : x c = 1 := (h c hc).resolve_left hx
    refine ⟨c, hc, fun i hi => ?_⟩
    by_cases e : i = c
    · rw [if_pos e, e, hc1]
    · rw [if_neg e]
      rw [← add_sum_erase s x hc, hc1] at hs
      have h0 : ∑ i ∈ s.erase c, x i = 0 := by linarith
      have := (sum_eq_zero_iff_of_nonneg (fun i hi => by
        rcases h i (mem_of_mem_erase hi) with h | h <;> rw [h] <;> norm_num)).mp h0
      exact this i (mem_erase.mpr ⟨e, hi⟩)
  · rintro ⟨c, hc, hx⟩
    rw [sum_congr rfl hx, sum_ite_eq' s c, if_pos hc]

/-- **C56** Box and integrality constraints of the models: exactly the points within the bounds whose
integer variables have integer values (the bounds of the auxiliary variables exclude nothing). -/
theorem C56_box_integrality {n : ℕ} {lo up : ℕ → ℝ} {iv : List ℕ} (hiv : ∀ i ∈ iv, i < n)
    (x : ℕ → ℝ) :
    PyBoxInt n lo up iv x ↔ (∀ i < n, lo i ≤ x i ∧ x i ≤ up i) ∧ ∀ i ∈ iv, ∃ z : ℤ, x i = z := by
  constructor
  · rintro ⟨hb, y, hy⟩
    refine ⟨hb, fun i hi => ?_⟩
    obtain ⟨l, hl, rfl⟩ := List.mem_iff_getElem.mp hi
    exact ⟨y l, (hy l hl).2⟩
  · rintro ⟨hb, hz⟩
    refine ⟨hb, fun l => if h : l < iv.length then (hz iv[l] (List.getElem_mem h)).choose else 0,
      fun l hl => ?_⟩
    have := (hz iv[l] (List.getElem_mem hl)).choose_spec
    simp only [dif_pos hl]
    rw [← this]
    exact ⟨hb _ (hiv _ (List.getElem_mem hl)), rfl⟩

/-- **C56** With 0/1 integer variables, the categorical constraints admit exactly the one-hot
points. -/
theorem C56_categorical {n : ℕ} {lo up : ℕ → ℝ} {iv : List ℕ} {groups : List (List ℕ)}
    (hg : ∀ e ∈ groups, e.Nodup ∧ ∀ c ∈ e, c < n ∧ c ∈ iv ∧ lo c = 0 ∧ up c = 1) {x : ℕ → ℝ}
    (hx : PyBoxInt n lo up iv x) :
    PyCat n groups x ↔ ∀ e ∈ groups, ∃ c ∈ e, ∀ i ∈ e, x i = if i = c then 1 else 0 := by
  have hbin : ∀ e ∈ groups, ∀ c ∈ e, x c = 0 ∨ x c = 1 := by
    intro e he c hc
    obtain ⟨hcn, hci, h0, h1⟩ := (hg e he).2 c hc
    obtain ⟨hb, y, hy⟩ := hx
    obtain ⟨l, hl, hlc⟩ := List.mem_iff_getElem.mp hci
    have hb := hb c hcn
    have hy := (hy l hl).2
    rw [hlc] at hy
    rw [h0, h1, hy] at hb
    have h2 : (0 : ℤ) ≤ y l := by exact_mod_cast hb.1
    have h3 : y l ≤ (1 : ℤ) := by exact_mod_cast hb.2
    rw [hy]
    rcases (by omega : y l = 0 ∨ y l = 1) with h | h <;> rw [h] <;> simp
  unfold PyCat
  refine forall₂_congr fun e he => ?_
  rw [cat_sum (hg e he).1 fun c hc => ((hg e he).2 c hc).1,
    sum_one_iff fun i hi => hbin e he i (List.mem_toFinset.mp hi)]
  simp only [List.mem_toFinset]

/-- The real vector of a rational point. -/
noncomputable def realPt (q : Pt) (i : ℕ) : ℝ := ((q.getD i 0 : ℚ) : ℝ)

/-- **C56** The feasible points of every auxiliary model that has the categorical constraints are
exactly the feasible points of the reformulated problem, for every black box. -/
theorem C56_domain {eps : ℚ} {vars : List Var} (hw : WellFormed vars) {p : PyProblem} {t : Rbf}
    (hp : p ≠ .maxHk ∨ degreePolynomial t ≠ 1) {q : Pt}
    (hq : q.length = (construct eps vars).dim) :
    PyDomain p t (construct eps vars).dim (realPt (construct eps vars).lower)
      (realPt (construct eps vars).upper) (construct eps vars).intVars
      ((construct eps vars).expansion.map (fun e => e.2.2)) (realPt q) ↔
    FeasibleInternal (construct eps vars) q := by
  have hL := goodLayout_construct (eps := eps) hw
  generalize construct eps vars = I at *
  have hcat : pyHasCat p t = true := by
    rcases hp with h | h
    · cases p <;> simp_all [pyHasCat]
    · cases p <;> simp [pyHasCat, h]
  have hint : ∀ x : ℚ, IsInt x ↔ ∃ z : ℤ, ((x : ℚ) : ℝ) = z := by
    intro x
    constructor
    · rintro ⟨z, rfl⟩
      exact ⟨z, by norm_cast⟩
    · rintro ⟨z, hz⟩
      exact ⟨z, by exact_mod_cast hz⟩
  have hiv : ∀ i ∈ I.intVars, i < I.dim := by
    intro i hi
    rw [← hL.dim]
    exact hL.box.int i hi |>.1
  have hgr : ∀ e ∈ I.expansion.map (fun e => e.2.2), e.Nodup ∧ ∀ c ∈ e, c < I.dim ∧ c ∈ I.intVars ∧
      realPt I.lower c = 0 ∧ realPt I.upper c = 1 := by
    intro e he
    obtain ⟨f, hf, rfl⟩ := List.mem_map.mp he
    refine ⟨hL.nodup f hf, fun c hc => ?_⟩
    obtain ⟨-, h1, h2, h3, h4⟩ := hL.pos f hf c hc
    exact ⟨h1, h2, by rw [realPt, h3]; norm_num, by rw [realPt, h4]; norm_num⟩
  constructor
  · rintro ⟨hb, hc⟩
    have hone := (C56_categorical hgr hb).mp (hc hcat)
    obtain ⟨hb1, hb2⟩ := (C56_box_integrality hiv _).mp hb
    refine feasibleInternal_of hL ⟨by rw [hq, hL.dim], fun i hi => ?_, fun i hi => ?_⟩ fun e he => ?_
    · have := hb1 i (by rw [← hL.dim]; exact hi)
      simp only [realPt] at this
      exact ⟨by exact_mod_cast this.1, by exact_mod_cast this.2⟩
    · exact (hint _).mpr (hb2 i hi)
    · obtain ⟨c, hc, hx⟩ := hone _ (List.mem_map.mpr ⟨e, he, rfl⟩)
      refine HotAt.oneHot (c := c) ⟨hc, fun i hi => ?_⟩ (hL.nodup e he)
      have := hx i hi
      simp only [realPt] at this
      by_cases h : i = c
      · rw [if_pos h] at this ⊢; exact_mod_cast this
      · rw [if_neg h] at this ⊢; exact_mod_cast this
  · intro h
    have hg := h.good
    have hb : PyBoxInt I.dim (realPt I.lower) (realPt I.upper) I.intVars (realPt q) := by
      refine (C56_box_integrality hiv _).mpr ⟨fun i hi => ?_, fun i hi => (hint _).mp (hg.int i hi)⟩
      have := hg.box i (by rw [hL.dim]; exact hi)
      simp only [realPt]
      exact ⟨by exact_mod_cast this.1, by exact_mod_cast this.2⟩
    refine ⟨hb, fun _ => (C56_categorical hgr hb).mpr fun e he => ?_⟩
    obtain ⟨f, hf, rfl⟩ := List.mem_map.mp he
    obtain ⟨c, hc, hx⟩ := (h.oneHot f hf).hot (hL.nodup f hf)
    refine ⟨c, hc, fun i hi => ?_⟩
    rw [realPt, hx i hi]
    split <;> norm_num

/-- **C56, violated** The model that maximizes `h_k` with a basis function of degree 1 (cubic, thin
plate spline) has no categorical constraints: for every black box with a categorical variable, every
choice of the binaries is feasible, in particular "no category".  After the solver only
`round_integer_vars` is applied, which changes nothing. -/
theorem C56_violated_h_k_categories {n : ℕ} {lo up : ℕ → ℝ} {iv : List ℕ}
    {groups : List (List ℕ)} {t : Rbf} (ht : degreePolynomial t = 1) {x : ℕ → ℝ}
    (hx : PyBoxInt n lo up iv x) {e : List ℕ} (he : e ∈ groups)
    (hg : ∀ c ∈ e, c < n ∧ lo c = 0 ∧ up c = 1)
    {round1 : ℝ → ℝ} (hr : ∀ z : ℤ, round1 z = z) :
    ∃ y : ℕ → ℝ, PyDomain .maxHk t n lo up iv groups y ∧ (∀ c ∉ e, y c = x c) ∧
      (∀ c ∈ e, y c = 0) ∧ solverPoint round1 iv (.optimal y) = some y ∧
      ¬ PyCat n groups y := by
  have hnocat : pyHasCat .maxHk t = false := by simp [pyHasCat, ht]
  obtain ⟨hb, z, hz⟩ := hx
  refine ⟨fun c => if c ∈ e then 0 else x c, ⟨⟨fun i hi => ?_, fun l => if h : l < iv.length then
      (if iv[l] ∈ e then 0 else z l) else 0, fun l hl => ?_⟩, fun h => ?_⟩, ?_, ?_, ?_, ?_⟩
  · by_cases h : i ∈ e
    · obtain ⟨-, h0, h1⟩ := hg i h
      simp [h, h0, h1]
    · simpa [h] using hb i hi
  · simp only [dif_pos hl]
    by_cases h : iv[l] ∈ e
    · obtain ⟨-, h0, h1⟩ := hg _ h
      simp [h, h0, h1]
    · simpa [h] using hz l hl
  · rw [hnocat] at h; cases h
  · intro c hc; simp [hc]
  · intro c hc; simp [hc]
  · simp only [solverPoint, Option.some.injEq]
    funext i
    by_cases hi : i ∈ iv
    · rw [if_pos hi]
      by_cases h : i ∈ e
      · simpa [h] using hr 0
      · obtain ⟨l, hl, rfl⟩ := List.mem_iff_getElem.mp hi
        simp only [h, if_false, (hz l hl).2]
        exact hr _
    · rw [if_neg hi]
  · intro h
    have := h e he
    rw [sum_eq_zero] at this
    · exact zero_ne_one this
    · intro j _
      by_cases hj : j ∈ e <;> simp [hj]

/-- The hypotheses are met by a categorical variable with three values and the cubic basis
function. -/
theorem C56_violated_h_k_example : ∃ y : ℕ → ℝ,
    PyDomain .maxHk .cubic 3 (fun _ => 0) (fun _ => 1) [0, 1, 2] [[0, 1, 2]] y ∧
      ¬ PyCat 3 [[0, 1, 2]] y := by
  obtain ⟨y, h1, -, -, -, h2⟩ := C56_violated_h_k_categories (n := 3) (lo := fun _ => 0)
    (up := fun _ => 1) (iv := [0, 1, 2]) (groups := [[0, 1, 2]]) (t := .cubic) rfl (x := fun _ => 0)
    ⟨by simp, fun _ => 0, by simp⟩ (e := [0, 1, 2]) (by simp) (by simp) (round1 := id) (by simp)
  exact ⟨y, h1, h2⟩

/-! ## Distance models -/

/-- Smallest squared distance from the nodes. -/
noncomputable def minSq (n k : ℕ) (nodes : ℕ → ℕ → ℝ) (x : ℕ → ℝ) (hk : 0 < k) : ℝ :=
  (range k).inf' (nonempty_range_iff.mpr hk.ne') (fun i => sqDist n x (nodes i))

theorem le_minSq {n k : ℕ} {nodes : ℕ → ℕ → ℝ} {x : ℕ → ℝ} {hk : 0 < k} {m : ℝ} :
    m ≤ minSq n k nodes x hk ↔ ∀ i < k, m ≤ sqDist n x (nodes i) := by
  unfold minSq
  rw [le_inf'_iff]
  simp only [mem_range]

/-- The squared distance bounds the distance. -/
theorem sqrt_minSq {n k : ℕ} {nodes : ℕ → ℕ → ℝ} {x : ℕ → ℝ} {hk : 0 < k} :
    (∀ i < k, Real.sqrt (minSq n k nodes x hk) ≤ euclid n x (nodes i)) ∧
      ∃ i < k, Real.sqrt (minSq n k nodes x hk) = euclid n x (nodes i) := by
  constructor
  · intro i hi
    rw [euclid_eq_sqrt]
    exact Real.sqrt_le_sqrt (le_minSq.mp le_rfl i hi)
  · obtain ⟨i, hi, h⟩ := exists_mem_eq_inf' (nonempty_range_iff.mpr hk.ne')
      (fun i => sqDist n x (nodes i))
    refine ⟨i, mem_range.mp hi, ?_⟩
    rw [euclid_eq_sqrt, minSq, h]

/-- An optimal solution of `create_maximin_dist_model` on the points satisfying `D`. -/
structure MaximinOptimal (minDist : ℝ) (n k : ℕ) (nodes : ℕ → ℕ → ℝ) (D : (ℕ → ℝ) → Prop)
    (x : ℕ → ℝ) (m : ℝ) : Prop where
  dom : D x
  feas : PyMinDistSq minDist n k nodes x m
  best : ∀ y m', D y → PyMinDistSq minDist n k nodes y m' → m' ≤ m

/-- **C56** An optimal solution of the maximin model is a point whose smallest distance from the nodes
is the largest among all feasible points, also those the bound on the auxiliary variable excludes. -/
theorem C56_maximin {minDist : ℝ} {n k : ℕ} (hk : 0 < k) {nodes : ℕ → ℕ → ℝ} {D : (ℕ → ℝ) → Prop}
    {x : ℕ → ℝ} {m : ℝ} (h : MaximinOptimal minDist n k nodes D x m) :
    m = minSq n k nodes x hk ∧
    ∀ y, D y → ∃ i < k, ∀ j < k, euclid n y (nodes i) ≤ euclid n x (nodes j) := by
  obtain ⟨hD, ⟨h0, hm, hi⟩, hbest⟩ := h
  have hle : m ≤ minSq n k nodes x hk := le_minSq.mpr hi
  have hm' : m = minSq n k nodes x hk :=
    le_antisymm hle (hbest x _ hD ⟨h0.trans hle, hm.trans hle, le_minSq.mp le_rfl⟩)
  refine ⟨hm', fun y hy => ?_⟩
  have key : minSq n k nodes y hk ≤ minSq n k nodes x hk := by
    by_contra hc
    push Not at hc
    have := hbest y _ hy ⟨(h0.trans hle).trans hc.le, (hm.trans hle).trans hc.le, le_minSq.mp le_rfl⟩
    rw [hm'] at this
    exact absurd this (not_le.mpr hc)
  obtain ⟨i, hi, he⟩ := (sqrt_minSq (n := n) (nodes := nodes) (x := y) (hk := hk)).2
  refine ⟨i, hi, fun j hj => ?_⟩
  rw [← he]
  exact (Real.sqrt_le_sqrt key).trans (sqrt_minSq.1 j hj)

/-- The hypothesis is met: on the interval [0, 1] with a node at 0, the optimal solution is `x = 1`. -/
theorem maximin_example : MaximinOptimal (1 / 10 ^ 5) 1 1 (fun _ _ => 0)
    (fun x => 0 ≤ x 0 ∧ x 0 ≤ 1) (fun _ => 1) 1 := by
  refine ⟨by norm_num, ⟨by norm_num, by norm_num, fun i _ => ?_⟩, ?_⟩
  · rw [sqDist, sum_range_one]; norm_num
  · rintro y m' ⟨h0, h1⟩ ⟨-, -, hi⟩
    have := hi 0 one_pos
    rw [sqDist, sum_range_one] at this
    nlinarith

/-- **C56** What the bound on `mindistsq` demands of the point: that its squared distance from every
node is at least `min_dist`, which for `min_dist < 1` is more than a distance of `min_dist`. -/
theorem C56_min_dist_bound {minDist : ℝ} {n k : ℕ} {nodes : ℕ → ℕ → ℝ} (hd : 0 ≤ minDist)
    (x : ℕ → ℝ) :
    (∃ m, PyMinDistSq minDist n k nodes x m) ↔
      ∀ i < k, Real.sqrt minDist ≤ euclid n x (nodes i) := by
  constructor
  · rintro ⟨m, -, hm, hi⟩ i hik
    rw [euclid_eq_sqrt]
    exact Real.sqrt_le_sqrt (hm.trans (hi i hik))
  · intro h
    refine ⟨minDist, hd, le_rfl, fun i hi => ?_⟩
    have := h i hi
    rw [euclid_eq_sqrt] at this
    exact (Real.sqrt_le_sqrt_iff (sqDist_nonneg _ _ _)).mp this

/-- **C56, violated** The distance models exclude points that are farther than `min_dist` from all
nodes: with `min_dist = 1e-5` (the default), all points closer than about 0.003. -/
theorem C56_violated_min_dist_squared : ∃ (nodes : ℕ → ℕ → ℝ) (x : ℕ → ℝ),
    (∀ i < 1, 100 * (1 / 10 ^ 5 : ℝ) < euclid 1 x (nodes i)) ∧
      ¬ ∃ m, PyMinDistSq (1 / 10 ^ 5) 1 1 nodes x m := by
  refine ⟨fun _ _ => 0, fun _ => 2 / 1000, ?_, ?_⟩
  · intro i _
    rw [euclid_eq_sqrt, sqDist, sum_range_one]
    refine Real.lt_sqrt_of_sq_lt ?_
    norm_num
  · rintro ⟨m, -, hm, hi⟩
    have := hm.trans (hi 0 one_pos)
    rw [sqDist, sum_range_one] at this
    norm_num at this

/-- **C56** The score that the MSRSM model minimizes: for every point, the best value of the auxiliary
variable is the smallest squared distance, and there the objective is the weighted sum of the distance
term and of the interpolant term, with positive denominators. -/
theorem C56_msrsm {eps w distMin distMax fmin fmax : ℝ} (heps : 0 ≤ eps) (hw : 0 ≤ w)
    (modified : Bool) (t : Rbf) (g : ℝ) {n k : ℕ} (hk : 0 < k) (nodes : ℕ → ℕ → ℝ) (lam h x : ℕ → ℝ)
    {minDist m : ℝ} (hm : PyMinDistSq minDist n k nodes x m) :
    let P := msrsmParams eps modified w distMin distMax fmin fmax
    let d := Real.sqrt (minSq n k nodes x hk)
    let distTerm := if distMax ≤ distMin + eps then distMax - d else (distMax - d) / (distMax - distMin)
    let s := evaluateRbf t g n k nodes lam h x
    let objTerm := if fmax ≤ fmin + eps then s - fmin else (s - fmin) / (fmax - fmin)
    PyMinDistSq minDist n k nodes x (minSq n k nodes x hk) ∧
    pyMsrsm P t 0 g n k nodes lam h x (minSq n k nodes x hk) =
      w * distTerm + (if modified then 1 else 1 - w) * objTerm ∧
    pyMsrsm P t 0 g n k nodes lam h x (minSq n k nodes x hk) ≤
      pyMsrsm P t 0 g n k nodes lam h x m := by
  obtain ⟨h0, hmd, hi⟩ := hm
  have hle : m ≤ minSq n k nodes x hk := le_minSq.mpr hi
  have hden : 0 ≤ distMax - (if distMax ≤ distMin + eps then distMax - 1 else distMin) := by
    split
    · linarith
    · rename_i hc; push Not at hc; linarith
  refine ⟨⟨h0.trans hle, hmd.trans hle, le_minSq.mp le_rfl⟩, ?_, ?_⟩
  · simp only [pyMsrsm, msrsmParams, C56_min_rbf_exact t 0 g n k nodes lam h x (.inl rfl)]
    congr 1
    · by_cases hc : distMax ≤ distMin + eps
      · simp only [if_pos hc, sub_sub_cancel, div_one]
      · simp only [if_neg hc, mul_div_assoc]
    · by_cases hc : fmax ≤ fmin + eps
      · simp only [if_pos hc, add_sub_cancel_left, div_one]
      · simp only [if_neg hc, mul_div_assoc]
  · simp only [pyMsrsm, msrsmParams]
    have := Real.sqrt_le_sqrt hle
    gcongr

/-! ## The least bumpy interpolant -/

/-- **C56** The coefficients admitted by the model for noisy nodes: the interpolant built with the
given matrices has at each node a value in the node's interval (the interval's lower end if it is
degenerate), and satisfies the orthogonality conditions. -/
theorem C56_min_bump_constraints {t : Rbf} {n k : ℕ} {Phi Pm : ℕ → ℕ → ℝ}
    {val errLo errUp lam h : ℕ → ℝ} (hle : ∀ i < k, errLo i ≤ errUp i) :
    PyBumpFeasible t n k Phi Pm val errLo errUp lam h ↔
      (∀ i < k, val i + errLo i ≤ pyIntr t n k Phi Pm lam h i ∧
        pyIntr t n k Phi Pm lam h i ≤ val i + errUp i) ∧
      ∀ c < sizeP t n, ∑ j ∈ range k, Pm j c * lam j = 0 := by
  unfold PyBumpFeasible
  refine and_congr_left fun _ => forall₂_congr fun i hi => ?_
  have := hle i hi
  dsimp only
  by_cases hc : val i + errLo i ≥ val i + errUp i
  · rw [if_pos hc]
    constructor
    · rintro ⟨h1, -⟩
      constructor <;> linarith
    · rintro ⟨h1, h2⟩
      exact ⟨by linarith, fun h => absurd hc h⟩
  · rw [if_neg hc]
    exact ⟨fun ⟨h1, h2⟩ => ⟨h1, h2 hc⟩, fun ⟨h1, h2⟩ => ⟨h1, fun _ => h2⟩⟩

/-- The left-hand side of the constraints is the value of the interpolant at the node, up to entries
below `eps_zero` of the matrix. -/
theorem pyIntr_near {t : Rbf} {g eps : ℝ} (he : 0 ≤ eps) {n k : ℕ} {nodes : ℕ → ℕ → ℝ}
    {lam h : ℕ → ℝ} {i : ℕ} (hi : i < k) :
    |evaluateRbf t g n k nodes lam h (nodes i) -
      pyIntr t n k (rbfMatrix t g eps n k nodes) (fun i c => rbfMatrix t g eps n k nodes i (k + c))
        lam h i| ≤ eps * (∑ j ∈ range k, |lam j| + ∑ c ∈ range (sizeP t n), |h c|) := by
  have hev : evaluateRbf t g n k nodes lam h (nodes i) =
      ∑ j ∈ range k, rawMatrix t g n k nodes i j * lam j +
        ∑ c ∈ range (sizeP t n), rawMatrix t g n k nodes i (k + c) * h c := by
    rw [evaluate_eq]
    congr 1
    · refine sum_congr rfl fun j hj => ?_
      rw [rawMatrix, if_pos hi, if_pos (mem_range.mp hj)]
    · refine sum_congr rfl fun c _ => ?_
      rw [rawMatrix, if_pos hi, if_neg (by omega), Nat.add_sub_cancel_left]
  rw [hev, pyIntr]
  have hz : ∀ (s : Finset ℕ) (a b : ℕ → ℝ),
      |∑ j ∈ s, a j * b j - ∑ j ∈ s, zeroTiny eps (a j) * b j| ≤ eps * ∑ j ∈ s, |b j| := by
    intro s a b
    rw [← sum_sub_distrib, mul_sum]
    refine (abs_sum_le_sum_abs _ _).trans (sum_le_sum fun j _ => ?_)
    rw [← sub_mul, abs_mul]
    exact mul_le_mul_of_nonneg_right (zeroTiny_near he _) (abs_nonneg _)
  have h1 := hz (range k) (fun j => rawMatrix t g n k nodes i j) lam
  have h2 := hz (range (sizeP t n)) (fun c => rawMatrix t g n k nodes i (k + c)) h
  simp only [rbfMatrix]
  rw [mul_add]
  refine le_trans (le_of_eq ?_) ((abs_add_le _ _).trans (add_le_add h1 h2))
  congr 1
  ring

/-- **C56** The interpolant obtained from the model for noisy nodes: at every node its value is in the
interval `[value + lower deviation, value + upper deviation]`, up to matrix entries below `eps_zero`;
exactly if no entry is replaced (`eps = 0`). -/
theorem C56_noisy_interpolant {t : Rbf} {g eps : ℝ} (he : 0 ≤ eps) {n k : ℕ} {nodes : ℕ → ℕ → ℝ}
    {val errLo errUp lam h : ℕ → ℝ} (hle : ∀ i < k, errLo i ≤ errUp i)
    (hf : PyBumpFeasible t n k (rbfMatrix t g eps n k nodes)
      (fun i c => rbfMatrix t g eps n k nodes i (k + c)) val errLo errUp lam h) {i : ℕ} (hi : i < k) :
    let tol := eps * (∑ j ∈ range k, |lam j| + ∑ c ∈ range (sizeP t n), |h c|)
    val i + errLo i - tol ≤ evaluateRbf t g n k nodes lam h (nodes i) ∧
      evaluateRbf t g n k nodes lam h (nodes i) ≤ val i + errUp i + tol := by
  obtain ⟨h1, h2⟩ := ((C56_min_bump_constraints hle).mp hf).1 i hi
  have := abs_le.mp (pyIntr_near (t := t) (g := g) he (lam := lam) (h := h) (nodes := nodes) (n := n) hi)
  dsimp only
  constructor <;> linarith [this.1, this.2]

/-- **C56** The coefficients of the exact interpolant, which are returned if the solver fails, are
feasible for the model whenever every interval contains the value, with or without categorical
variables. -/
theorem C56_fallback_feasible {solve : ℕ → (ℕ → ℕ → ℝ) → (ℕ → ℝ) → Option (ℕ → ℝ)}
    (hs : SolverOk solve) {t : Rbf} {g eps : ℝ} (he1 : eps ≤ 1) {n k : ℕ} {nodes : ℕ → ℕ → ℝ}
    {val errLo errUp lam h : ℕ → ℝ} {groups : List (List ℕ)} (hg : OneHotNodes n k nodes groups)
    (hc : rbfCoefficients solve t n k (rbfMatrix t g eps n k nodes) val groups = some (lam, h))
    (he : ∀ i < k, errLo i ≤ 0 ∧ 0 ≤ errUp i) :
    noisyCoefficients .failed (some (lam, h)) = some (lam, h) ∧
    PyBumpFeasible t n k (rbfMatrix t g eps n k nodes)
      (fun i c => rbfMatrix t g eps n k nodes i (k + c)) val errLo errUp lam h := by
  refine ⟨rfl, (C56_min_bump_constraints fun i hi => (he i hi).1.trans (he i hi).2).mpr
    ⟨fun i hi => ?_, fun c hcp => ?_⟩⟩
  · have hrow := kept_row hs hc (mem_kept_node (t := t) (n := n) (groups := groups) hi)
    rw [if_pos hi] at hrow
    rw [pyIntr, hrow]
    exact ⟨by linarith [(he i hi).1], by linarith [(he i hi).2]⟩
  · by_cases hp : degreePolynomial t = 1
    · obtain ⟨h1, h2⟩ := C43_side_conditions hs hp he1 hg hc
      have hsz : sizeP t n = n + 1 := by cases t <;> simp_all [degreePolynomial, sizeP]
      have e : ∀ j ∈ range k, rbfMatrix t g eps n k nodes j (k + c) * lam j =
          if c = n then zeroTiny eps 1 * lam j else zeroTiny eps (nodes j c) * lam j := by
        intro j hj
        rw [rbfMatrix, rawMatrix, if_pos (mem_range.mp hj), if_neg (by omega),
          Nat.add_sub_cancel_left, matP, if_pos hsz]
        split <;> rfl
      rw [sum_congr rfl e]
      by_cases hcn : c = n
      · simp only [if_pos hcn]
        rw [← mul_sum, h1, mul_zero]
      · simp only [if_neg hcn]
        exact h2 c (by omega)
    · have hk : k + c ∈ keptIndices t n k groups := by
        unfold keptIndices
        split
        · rename_i hsz
          rw [List.mem_filter]
          refine ⟨by simp; omega, ?_⟩
          simp only [decide_eq_true_eq]
          intro e hee
          obtain ⟨d, hd⟩ := List.exists_mem_of_ne_nil e (hg.nonempty e hee)
          have := hg.lt e hee d hd
          cases t <;> simp_all [degreePolynomial, sizeP]
        · simp; omega
      have hrow := kept_row hs hc hk
      rw [if_neg (by omega)] at hrow
      have h2 : ∑ d ∈ range (sizeP t n), rbfMatrix t g eps n k nodes (k + c) (k + d) * h d = 0 := by
        refine sum_eq_zero fun d _ => ?_
        rw [rbfMatrix, rawMatrix, if_neg (by omega), if_neg (by omega)]
        unfold zeroTiny; split <;> simp
      rw [h2, add_zero] at hrow
      rw [← hrow]
      exact sum_congr rfl fun j _ => by rw [C45_symmetric]

/-- **C56** The objective of the model for noisy nodes is the bumpiness of the interpolant: the
quadratic form `λᵀ Φ λ` with the sign `(-1)^(degree + 1)` of the theory. -/
theorem C56_min_bump_objective (t : Rbf) (k : ℕ) (Phi : ℕ → ℕ → ℝ) (lam : ℕ → ℝ) :
    pyBump t k Phi lam = (-1 : ℝ) ^ (degreePolynomial t + 1) * quadForm k Phi lam := by
  rw [quadForm_eq]
  cases t <;> simp [pyBump, degreePolynomial, mul_assoc]

end Rbfopt
