import Verif.Props.TestFunctionsRest
import Mathlib.Analysis.Complex.Exponential

/-!
# C88: the function least

For a fixed last variable the function is the residual of a linear regression; minimizing over the other two
leaves a polynomial in `u = exp (2 x₂)`, which has an explicit positivity certificate.
-/

namespace Rbfopt
namespace TestFns
open Real

theorem least_regression {u : ℝ} (hu : 0 < u) (h x0 : ℝ) :
    14085.139848928 - 1e-6 ≤ (127 - h - x0) ^ 2 + (151 - h * u - x0) ^ 2 + (379 - h * u ^ 2 - x0) ^ 2
      + (421 - h * u ^ 5 - x0) ^ 2 + (460 - h * u ^ 4 - x0) ^ 2 + (426 - h * u ^ 3 - x0) ^ 2 := by
  have hA : 0 < (5/6) + (4/3) * u ^ 1 + (7/3) * u ^ 2 + (8/3) * u ^ 3 + (19/6) * u ^ 4 + (8/3) * u ^ 5 + (7/3) * u ^ 6 + (4/3) * u ^ 7 + (5/6) * u ^ 8 := by positivity
  have hq : 0 ≤ (u - (66147338141847/100000000000000)) ^ 2 * ((13644114616038112277730535399981402496908116757643248792265664615284455447210691343296728183625527/150000000000000000000000000000000000000000000000000000000000000000000000000000000000000000000) + (55601670945714212612105445905484444027611873525649954953911517362563515600463999063/250000000000000000000000000000000000000000000000000000000000000000000000000000) * u ^ 1 + (1062672808404102032703919946343183345277334253389669860917575346046529/3000000000000000000000000000000000000000000000000000000000000000) * u ^ 2 + (14268419807465266231424451344064593182483228333336408807/37500000000000000000000000000000000000000000000000) * u ^ 3 + (159107522117236687050268908763450657413681/500000000000000000000000000000000000) * u ^ 4 + (449086928736408564196956541/2500000000000000000000) * u ^ 5 + (10674007519009/150000000) * u ^ 6) := mul_nonneg (sq_nonneg _) (by positivity)
  have hP : 0 ≤ ((5/6) + (4/3) * u ^ 1 + (7/3) * u ^ 2 + (8/3) * u ^ 3 + (19/6) * u ^ 4 + (8/3) * u ^ 5 + (7/3) * u ^ 6 + (4/3) * u ^ 7 + (5/6) * u ^ 8) * (35970072557027/375000000) - ((601/3) + (1130/3) * u ^ 1 + (325) * u ^ 2 + (679/3) * u ^ 3 + (281/3) * u ^ 4) ^ 2 := by
    linarith [hq, sq_nonneg (u - (66147338141847/100000000000000) + (-2499487115950707785511929294289314812519932319021169968414699585510089444721497104665592387803411/1250000000000000000000000000000000000000000000000000000000000000000000000000000000000000000000000000000000))]
  have hz := sq_nonneg (((5/6) + (4/3) * u ^ 1 + (7/3) * u ^ 2 + (8/3) * u ^ 3 + (19/6) * u ^ 4 + (8/3) * u ^ 5 + (7/3) * u ^ 6 + (4/3) * u ^ 7 + (5/6) * u ^ 8) * (h * (u - 1)) - ((601/3) + (1130/3) * u ^ 1 + (325) * u ^ 2 + (679/3) * u ^ 3 + (281/3) * u ^ 4))
  have hmean := sq_nonneg (((1964) - h * (1 + u + u ^ 2 + u ^ 3 + u ^ 4 + u ^ 5)) / 6 - x0)
  have key : ((5/6) + (4/3) * u ^ 1 + (7/3) * u ^ 2 + (8/3) * u ^ 3 + (19/6) * u ^ 4 + (8/3) * u ^ 5 + (7/3) * u ^ 6 + (4/3) * u ^ 7 + (5/6) * u ^ 8) * ((127 - h - x0) ^ 2 + (151 - h * u - x0) ^ 2 + (379 - h * u ^ 2 - x0) ^ 2
      + (421 - h * u ^ 5 - x0) ^ 2 + (460 - h * u ^ 4 - x0) ^ 2 + (426 - h * u ^ 3 - x0) ^ 2
      - (14085.139848928 - 1e-6))
      = 6 * ((5/6) + (4/3) * u ^ 1 + (7/3) * u ^ 2 + (8/3) * u ^ 3 + (19/6) * u ^ 4 + (8/3) * u ^ 5 + (7/3) * u ^ 6 + (4/3) * u ^ 7 + (5/6) * u ^ 8) * (((1964) - h * (1 + u + u ^ 2 + u ^ 3 + u ^ 4 + u ^ 5)) / 6 - x0) ^ 2
        + (((5/6) + (4/3) * u ^ 1 + (7/3) * u ^ 2 + (8/3) * u ^ 3 + (19/6) * u ^ 4 + (8/3) * u ^ 5 + (7/3) * u ^ 6 + (4/3) * u ^ 7 + (5/6) * u ^ 8) * (h * (u - 1)) - ((601/3) + (1130/3) * u ^ 1 + (325) * u ^ 2 + (679/3) * u ^ 3 + (281/3) * u ^ 4)) ^ 2
        + (((5/6) + (4/3) * u ^ 1 + (7/3) * u ^ 2 + (8/3) * u ^ 3 + (19/6) * u ^ 4 + (8/3) * u ^ 5 + (7/3) * u ^ 6 + (4/3) * u ^ 7 + (5/6) * u ^ 8) * (35970072557027/375000000) - ((601/3) + (1130/3) * u ^ 1 + (325) * u ^ 2 + (679/3) * u ^ 3 + (281/3) * u ^ 4) ^ 2) := by
    ring
  have h6 : 0 ≤ 6 * ((5/6) + (4/3) * u ^ 1 + (7/3) * u ^ 2 + (8/3) * u ^ 3 + (19/6) * u ^ 4 + (8/3) * u ^ 5 + (7/3) * u ^ 6 + (4/3) * u ^ 7 + (5/6) * u ^ 8) * (((1964) - h * (1 + u + u ^ 2 + u ^ 3 + u ^ 4 + u ^ 5)) / 6 - x0) ^ 2 :=
    mul_nonneg (mul_nonneg (by norm_num) hA.le) hmean
  have := nonneg_of_mul_nonneg_right (key ▸ add_nonneg (add_nonneg h6 hz) hP) hA
  linarith

/-- Twelve digits of exp(0.206642767973). -/
theorem exp_least_digits : (1.229543261086 : ℝ) ≤ exp 0.206642767973 ∧ exp 0.206642767973 ≤ 1.2295432610861 := by
  have h1 := Real.exp_bound' (x := 0.206642767973) (by norm_num) (by norm_num) (n := 10) (by norm_num)
  have h2 := Real.sum_le_exp_of_nonneg (x := 0.206642767973) (by norm_num) 10
  constructor
  · refine le_trans ?_ h2
    norm_num [Finset.sum_range_succ, Nat.factorial]
  · refine h1.trans ?_
    norm_num [Finset.sum_range_succ, Nat.factorial]

theorem sq_close {r c : ℝ} (h : |r - c| ≤ 1e-9) (hc : |c| ≤ 200) : |r ^ 2 - c ^ 2| ≤ 5e-7 := by
  rw [abs_le] at *
  obtain ⟨h1, h2⟩ := h
  obtain ⟨c1, c2⟩ := hc
  norm_num at h1 h2
  constructor <;> nlinarith

/-- The optimum of least is as declared. -/
theorem C88_least : least.OptimumIs 1e-5 := by
  have hf := C88_rest_least
  refine ⟨hf.1, ⟨hf.2, _, rfl, ?_⟩, by intro p hp; simp [least] at hp, ?_⟩
  · have h0 : least.optPoint 0 = 516.651174172 := rfl
    have h1 : least.optPoint 1 = -149.351893696 := rfl
    have h2 : least.optPoint 2 = -0.206642767973 := rfl
    have ho : least.optVal = 14085.139848928 := rfl
    rw [h0, h1, h2, ho]
    obtain ⟨l, r⟩ := exp_least_digits
    have hI : exp (-0.206642767973) = (exp 0.206642767973)⁻¹ := Real.exp_neg _
    have e5 : exp (-5 * -0.206642767973) = exp 0.206642767973 ^ 5 := by
      rw [← Real.exp_nat_mul]; congr 1; norm_num
    have e3 : exp (-3 * -0.206642767973) = exp 0.206642767973 ^ 3 := by
      rw [← Real.exp_nat_mul]; congr 1; norm_num
    have e1 : exp (- -0.206642767973) = exp 0.206642767973 := by rw [neg_neg]
    have f5 : exp (5 * -0.206642767973) = exp (-0.206642767973) ^ 5 := by
      rw [← Real.exp_nat_mul]; congr 1
    have f3 : exp (3 * -0.206642767973) = exp (-0.206642767973) ^ 3 := by
      rw [← Real.exp_nat_mul]; congr 1
    rw [e5, e3, e1, f5, f3, hI]
    generalize exp 0.206642767973 = E at l r ⊢
    have hE : 0 < E := lt_of_lt_of_le (by norm_num) l
    have il : (0.8133101385279 : ℝ) ≤ E⁻¹ := by
      rw [le_inv_comm₀ (by norm_num) hE]; refine r.trans ?_; norm_num
    have ir : E⁻¹ ≤ (0.813310138528 : ℝ) := by
      rw [inv_le_comm₀ hE (by norm_num)]; refine le_trans ?_ l; norm_num
    generalize E⁻¹ = G at il ir ⊢
    have l3 := pow_le_pow_left₀ (by norm_num) l 3
    have l5 := pow_le_pow_left₀ (by norm_num) l 5
    have r3 := pow_le_pow_left₀ hE.le r 3
    have r5 := pow_le_pow_left₀ hE.le r 5
    have hG : 0 ≤ G := le_trans (by norm_num) il
    have m3 := pow_le_pow_left₀ (by norm_num) il 3
    have m5 := pow_le_pow_left₀ (by norm_num) il 5
    have s3 := pow_le_pow_left₀ hG ir 3
    have s5 := pow_le_pow_left₀ hG ir 5
    generalize E ^ 3 = E3 at *
    generalize E ^ 5 = E5 at *
    generalize G ^ 3 = G3 at *
    generalize G ^ 5 = G5 at *
    norm_num at l r l3 l5 r3 r5 il ir m3 m5 s3 s5
    have q0 := sq_close (r := 127 + (- -149.351893696 * E5) - 516.651174172) (c := (7509991901/250000000))
      (by norm_num [abs_le]; constructor <;> linarith) (by norm_num [abs_le])
    have q1 := sq_close (r := 151 + (- -149.351893696 * E3) - 516.651174172) (c := (-440183277321/5000000000))
      (by norm_num [abs_le]; constructor <;> linarith) (by norm_num [abs_le])
    have q2 := sq_close (r := 379 + (- -149.351893696 * E) - 516.651174172) (c := (459834402523/10000000000))
      (by norm_num [abs_le]; constructor <;> linarith) (by norm_num [abs_le])
    have q3 := sq_close (r := 421 + (- -149.351893696 * G5) - 516.651174172) (c := (-106256485867/2500000000))
      (by norm_num [abs_le]; constructor <;> linarith) (by norm_num [abs_le])
    have q4 := sq_close (r := 460 + (- -149.351893696 * G3) - 516.651174172) (c := (236976067721/10000000000))
      (by norm_num [abs_le]; constructor <;> linarith) (by norm_num [abs_le])
    have q5 := sq_close (r := 426 + (- -149.351893696 * G) - 516.651174172) (c := (308182351793/10000000000))
      (by norm_num [abs_le]; constructor <;> linarith) (by norm_num [abs_le])
    rw [abs_le] at q0 q1 q2 q3 q4 q5
    rw [abs_le]
    norm_num at q0 q1 q2 q3 q4 q5 ⊢
    constructor <;> linarith [q0.1, q0.2, q1.1, q1.2, q2.1, q2.2, q3.1, q3.2, q4.1, q4.2, q5.1, q5.2]
  · intro x hx v hv
    cases hv
    have ho : least.optVal = 14085.139848928 := rfl
    rw [ho]
    have hu : 0 < exp (2 * x 2) := Real.exp_pos _
    have h := least_regression hu (x 1 * exp (-5 * x 2)) (x 0)
    have e : ∀ (k : ℕ) (c : ℝ), -5 + 2 * k = c →
        x 1 * exp (-5 * x 2) * exp (2 * x 2) ^ k = x 1 * exp (c * x 2) := by
      intro k c hc
      rw [mul_assoc, ← Real.exp_nat_mul, ← Real.exp_add, ← hc]
      ring_nf
    have e1 := e 1 (-3) (by norm_num)
    have e2 := e 2 (-1) (by norm_num)
    have e3 := e 3 1 (by norm_num)
    have e4 := e 4 3 (by norm_num)
    have e5 := e 5 5 (by norm_num)
    rw [pow_one] at e1
    rw [e1, e2, e3, e4, e5, neg_one_mul, one_mul] at h
    norm_num at h ⊢
    have hs : ∀ a b c : ℝ, (a + -(x 1 * b) - c) = a - x 1 * b - c := fun a b c => by ring
    simp only [hs]
    linarith

end TestFns
end Rbfopt
