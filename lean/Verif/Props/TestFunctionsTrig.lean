import Verif.Props.TestFunctionsMore
import Mathlib.Analysis.Real.Pi.Bounds
import Mathlib.Analysis.SpecialFunctions.Trigonometric.Bounds

/-!
# C88: `branin`, the Schaeffer functions, and their categorical versions
-/

namespace Rbfopt
namespace TestFns
open Real

/-- The Branin formula with the trigonometric factor as a parameter. -/
noncomputable def braninF (x y c : ℝ) : ℝ :=
  (y - (5.1 / (4 * π * π)) * x * x + 5 / π * x - 6) ^ 2 + 10 * (1 - 1 / (8 * π)) * c + 10

theorem branin_lower {x y c : ℝ} (hc : -1 ≤ c) : 1.25 / π ≤ braninF x y c := by
  unfold braninF
  have hp := Real.pi_gt_three
  have h1 : 0 ≤ 1 - 1 / (8 * π) := by
    have : 1 / (8 * π) ≤ 1 := by
      rw [div_le_one (by positivity)]; linarith
    linarith
  have e : 1.25 / π = 10 * (1 / (8 * π)) := by field_simp; norm_num
  rw [e]
  nlinarith [sq_nonneg (y - (5.1 / (4 * π * π)) * x * x + 5 / π * x - 6)]

theorem inv_pi_bounds : 0.3978873577297 ≤ 1.25 / π ∧ 1.25 / π ≤ 0.3978873577298 := by
  have h1 := Real.pi_gt_d20
  have h2 := Real.pi_lt_d20
  have hp := Real.pi_pos
  constructor
  · rw [le_div_iff₀ hp]; norm_num at h2 ⊢; linarith
  · rw [div_le_iff₀ hp]; norm_num at h1 ⊢; linarith

/-- Near an odd multiple of π, with the matching second coordinate, the value is close to the lower
bound. -/
theorem branin_near {x y : ℝ} (m : ℝ) (hcos : cos x = -cos (x - m * π)) (hm : |m| ≤ 3)
    (hx : |x - m * π| ≤ 2e-8) (hy : |y - 1.275 * m ^ 2 + 5 * m - 6| ≤ 3e-8) :
    braninF x y (cos x) ≤ 1.25 / π + 1e-10 := by
  unfold braninF
  have hp := Real.pi_gt_three
  have e : 1.25 / π = 10 * (1 / (8 * π)) := by field_simp; norm_num
  set d := x - m * π with hd
  have hx' : x = m * π + d := by rw [hd]; ring
  have hcos' : cos x ≤ -1 + d ^ 2 / 2 := by
    rw [hcos]
    have := Real.one_sub_sq_div_two_le_cos (x := d)
    linarith
  set u := d / π with hu
  have hdu : d = u * π := by rw [hu]; field_simp
  have hub : |u| ≤ 1e-8 := by
    rw [hu, abs_div, abs_of_pos Real.pi_pos, div_le_iff₀ Real.pi_pos]
    norm_num at hx ⊢
    linarith
  have inner : y - (5.1 / (4 * π * π)) * x * x + 5 / π * x - 6
      = (y - 1.275 * m ^ 2 + 5 * m - 6) + u * (5 - 2.55 * m - 1.275 * u) := by
    rw [hx', hdu]
    field_simp
    ring
  rw [inner]
  rw [abs_le] at hub hx hy hm
  have h1 : |u * (5 - 2.55 * m - 1.275 * u)| ≤ 2e-7 := by
    rw [abs_mul]
    have a : |u| ≤ 1e-8 := abs_le.mpr hub
    have b : |5 - 2.55 * m - 1.275 * u| ≤ 20 := by
      rw [abs_le]; norm_num at hub ⊢; constructor <;> linarith
    calc |u| * |5 - 2.55 * m - 1.275 * u| ≤ 1e-8 * 20 := mul_le_mul a b (abs_nonneg _) (by norm_num)
      _ = 2e-7 := by norm_num
  rw [abs_le] at h1
  have h2 : ((y - 1.275 * m ^ 2 + 5 * m - 6) + u * (5 - 2.55 * m - 1.275 * u)) ^ 2 ≤ 1e-12 := by
    have : |(y - 1.275 * m ^ 2 + 5 * m - 6) + u * (5 - 2.55 * m - 1.275 * u)| ≤ 1e-6 := by
      rw [abs_le]; norm_num at hy h1 ⊢; constructor <;> linarith
    calc _ = |(y - 1.275 * m ^ 2 + 5 * m - 6) + u * (5 - 2.55 * m - 1.275 * u)| ^ 2 := (sq_abs _).symm
      _ ≤ (1e-6) ^ 2 := pow_le_pow_left₀ (abs_nonneg _) this 2
      _ = 1e-12 := by norm_num
  have h3 : d ^ 2 ≤ 4e-16 := by
    have : |d| ≤ 2e-8 := abs_le.mpr hx
    calc d ^ 2 = |d| ^ 2 := (sq_abs _).symm
      _ ≤ (2e-8) ^ 2 := pow_le_pow_left₀ (abs_nonneg _) this 2
      _ = 4e-16 := by norm_num
  have hi : 0 ≤ 1 / (8 * π) := by positivity
  have h4 : 0 ≤ 1 - 1 / (8 * π) := by
    have : 1 / (8 * π) ≤ 1 := by
      rw [div_le_one (by positivity)]; linarith
    linarith
  rw [e]
  have h5 : 10 * (1 - 1 / (8 * π)) * cos x ≤ 10 * (1 - 1 / (8 * π)) * (-1 + d ^ 2 / 2) :=
    mul_le_mul_of_nonneg_left hcos' (by linarith)
  have h6 : 10 * (1 - 1 / (8 * π)) * (d ^ 2 / 2) ≤ 10 * (d ^ 2 / 2) := by
    have := mul_nonneg hi (sq_nonneg d)
    nlinarith
  have h7 : 10 * (1 - 1 / (8 * π)) * (-1 + d ^ 2 / 2)
      = -10 + 10 * (1 / (8 * π)) + 10 * (1 - 1 / (8 * π)) * (d ^ 2 / 2) := by ring
  have h8 : (1e-12 : ℝ) + 10 * (4e-16 / 2) ≤ 1e-10 := by norm_num
  linarith

/-- The three declared minimisers of the Branin function. -/
theorem branin_points :
    braninF 9.42477796 2.47499998 (cos 9.42477796) ≤ 1.25 / π + 1e-10
    ∧ braninF (-3.14159265) 12.27500000 (cos (-3.14159265)) ≤ 1.25 / π + 1e-10
    ∧ braninF 3.14159265 2.27500000 (cos 3.14159265) ≤ 1.25 / π + 1e-10 := by
  have h1 := Real.pi_gt_d20
  have h2 := Real.pi_lt_d20
  norm_num at h1 h2
  refine ⟨branin_near 3 ?_ ?_ ?_ ?_, branin_near (-1) ?_ ?_ ?_ ?_, branin_near 1 ?_ ?_ ?_ ?_⟩
  · rw [show (9.42477796 : ℝ) - 3 * π = (9.42477796 - 2 * π) - π by ring, Real.cos_sub_pi,
      Real.cos_sub_two_pi, neg_neg]
  · norm_num
  · rw [abs_le]; constructor <;> norm_num <;> linarith
  · norm_num [abs_le]
  · rw [show (-3.14159265 : ℝ) - -1 * π = -3.14159265 + π by ring, Real.cos_add_pi, neg_neg]
  · norm_num
  · rw [abs_le]; constructor <;> norm_num <;> linarith
  · norm_num [abs_le]
  · rw [one_mul, Real.cos_sub_pi, neg_neg]
  · norm_num
  · rw [abs_le]; constructor <;> norm_num <;> linarith
  · norm_num [abs_le]

theorem branin_attains {x y : ℝ} (h : braninF x y (cos x) ≤ 1.25 / π + 1e-10) :
    |braninF x y (cos x) - 0.397887357729739| ≤ 1e-9 := by
  obtain ⟨l, u⟩ := inv_pi_bounds
  have := branin_lower (x := x) (y := y) (Real.neg_one_le_cos x)
  rw [abs_le]
  norm_num at l u h ⊢
  constructor <;> linarith

theorem C88_branin : branin.OptimumIs 1e-9 := by
  have he : ∀ x, branin.eval x = some (braninF (x 0) (x 1) (cos (x 0))) := fun x => rfl
  have hv : branin.vars = ![⟨-5, 10, .R⟩, ⟨0, 15, .R⟩] := rfl
  have hq : branin.optVal = 0.397887357729739 := rfl
  obtain ⟨p1, p2, p3⟩ := branin_points
  refine ⟨fun x _ => ⟨_, he x⟩, ⟨?_, _, he _, ?_⟩, ?_, ?_⟩
  · intro i
    rw [hv]
    fin_cases i <;> norm_num [branin]
  · exact branin_attains p1
  · intro p hp
    simp only [branin, List.mem_cons, List.not_mem_nil, or_false] at hp
    rcases hp with rfl | rfl
    · refine ⟨?_, _, he _, branin_attains p2⟩
      intro i
      rw [hv]
      fin_cases i <;> norm_num
    · refine ⟨?_, _, he _, branin_attains p3⟩
      intro i
      rw [hv]
      fin_cases i <;> norm_num
  · intro x _ v h
    rw [he] at h
    rw [← Option.some.inj h, hq]
    obtain ⟨l, u⟩ := inv_pi_bounds
    have := branin_lower (x := x 0) (y := x 1) (Real.neg_one_le_cos (x 0))
    norm_num at l ⊢
    linarith

/-- Every function offered by the categorical variable is at least -1. -/
theorem trigChoice_spec {k : ℤ} (h0 : 0 ≤ k) (h1 : k ≤ 3) :
    ∃ g, trigChoice k = some g ∧ ∀ t, -1 ≤ g t := by
  unfold trigChoice
  interval_cases k
  · exact ⟨_, if_pos (by norm_num), Real.neg_one_le_cos⟩
  · rw [if_neg (by norm_num)]
    exact ⟨_, if_pos (by norm_num), Real.neg_one_le_sin⟩
  · rw [if_neg (by norm_num), if_neg (by norm_num)]
    exact ⟨_, if_pos (by norm_num), fun t => by nlinarith [sq_nonneg (cos (t + π / 4))]⟩
  · rw [if_neg (by norm_num), if_neg (by norm_num), if_neg (by norm_num)]
    exact ⟨_, if_pos (by norm_num), fun t => by nlinarith [sq_nonneg (sin (t + π / 4))]⟩

theorem C88_branin_cat : branin_cat.OptimumIs 1e-9 := by
  have he : ∀ x, branin_cat.eval x
      = (trigChoice (x 2)).map (fun g => braninF (x 0) (x 1) (g (x 0))) := fun x => rfl
  have he0 : ∀ x, x 2 = 0 → branin_cat.eval x = some (braninF (x 0) (x 1) (cos (x 0))) := by
    intro x hx
    rw [he, hx]
    unfold trigChoice
    rw [if_pos rfl]
    rfl
  have hv : branin_cat.vars = ![⟨-5, 10, .R⟩, ⟨0, 15, .R⟩, ⟨0, 3, .C⟩] := rfl
  have hq : branin_cat.optVal = 0.397887357729739 := rfl
  obtain ⟨p1, p2, p3⟩ := branin_points
  have hf : ∀ x, branin_cat.Feasible x → ∃ v, branin_cat.eval x = some v ∧ branin_cat.optVal - 1e-9 ≤ v := by
    intro x hx
    obtain ⟨k, hk, k0, k1⟩ := intCoord hx 2 0 3 (by simp [hv]) (by simp [hv]) (by simp [hv])
    obtain ⟨g, hg, hl⟩ := trigChoice_spec k0 k1
    refine ⟨_, by rw [he, hk, hg]; rfl, ?_⟩
    rw [hq]
    obtain ⟨l, u⟩ := inv_pi_bounds
    have := branin_lower (x := x 0) (y := x 1) (hl (x 0))
    norm_num at l ⊢
    linarith
  refine ⟨fun x hx => (hf x hx).imp fun _ h => h.1, ⟨?_, _, he0 _ rfl, ?_⟩, ?_, ?_⟩
  · intro i
    rw [hv]
    fin_cases i <;> norm_num [branin_cat, intLit_zero]
  · exact branin_attains p1
  · intro p hp
    simp only [branin_cat, List.mem_cons, List.not_mem_nil, or_false] at hp
    rcases hp with rfl | rfl
    · refine ⟨?_, _, he0 _ rfl, branin_attains p2⟩
      intro i
      rw [hv]
      fin_cases i <;> norm_num [intLit_zero]
    · refine ⟨?_, _, he0 _ rfl, branin_attains p3⟩
      intro i
      rw [hv]
      fin_cases i <;> norm_num [intLit_zero]
  · intro x hx v h
    obtain ⟨w, hw, hl⟩ := hf x hx
    rw [hw] at h
    rw [← Option.some.inj h]
    exact hl

theorem schaeffer_nonneg (base : ℝ) (g : ℝ → ℝ) (opt x : Fin 12 → ℝ) : 0 ≤ schaeffer base g opt x :=
  Finset.sum_nonneg fun _ _ => sq_nonneg _

theorem schaeffer_self (base : ℝ) (g : ℝ → ℝ) (opt : Fin 12 → ℝ) : schaeffer base g opt opt = 0 := by
  unfold schaeffer
  refine Finset.sum_eq_zero fun i _ => ?_
  simp

theorem C88_schaeffer_f7_12_1 : schaeffer_f7_12_1.OptimumIs 0 := by
  have ho : schaeffer_f7_12_1.optPoint = schaeffer_f7_12_1_opt := rfl
  refine optimumIs_of (g := fun x => _) (fun x => rfl) ?_ ?_ rfl ?_
  · intro i
    rw [ho]
    unfold schaeffer_f7_12_1_opt
    fin_cases i <;> norm_num [schaeffer_f7_12_1]
  · rw [ho, schaeffer_self]
    norm_num [schaeffer_f7_12_1]
  · intro x _
    have := schaeffer_nonneg 2 sin schaeffer_f7_12_1_opt x
    norm_num [schaeffer_f7_12_1]
    linarith

theorem C88_schaeffer_f7_12_2 : schaeffer_f7_12_2.OptimumIs 0 := by
  have ho : schaeffer_f7_12_2.optPoint = schaeffer_f7_12_2_opt := rfl
  refine optimumIs_of (g := fun x => _) (fun x => rfl) ?_ ?_ rfl ?_
  · intro i
    rw [ho]
    unfold schaeffer_f7_12_2_opt
    fin_cases i <;> norm_num [schaeffer_f7_12_2]
  · rw [ho, schaeffer_self]
    norm_num [schaeffer_f7_12_2]
  · intro x _
    have := schaeffer_nonneg 3 sin schaeffer_f7_12_2_opt x
    norm_num [schaeffer_f7_12_2]
    linarith

theorem C88_schaeffer_f7_12_1_int_cat : schaeffer_f7_12_1_int_cat.OptimumIs 0 := by
  have ho : schaeffer_f7_12_1_int_cat.optPoint = schaeffer_f7_12_1_int_cat_opt := rfl
  have hv : schaeffer_f7_12_1_int_cat.vars = ![⟨-50, 50, .R⟩, ⟨-50, 50, .R⟩, ⟨-50, 50, .R⟩, ⟨-50, 50, .R⟩,
    ⟨-50, 50, .R⟩, ⟨-50, 50, .R⟩, ⟨-50, 50, .R⟩, ⟨-50, 50, .R⟩, ⟨-50, 50, .R⟩, ⟨-50, 50, .I⟩,
    ⟨-50, 50, .I⟩, ⟨-50, 50, .I⟩, ⟨0, 3, .C⟩] := rfl
  have hq : schaeffer_f7_12_1_int_cat.optVal = -10 := rfl
  have he : ∀ x, schaeffer_f7_12_1_int_cat.eval x = (trigChoice (x 12)).map (fun g =>
    schaeffer 2 g (fun i => schaeffer_f7_12_1_int_cat_opt i.castSucc) (fun i => x i.castSucc) - 10) :=
    fun _ => rfl
  refine optimumIs_of_feasible ?_ ?_ rfl ?_
  · intro i
    rw [ho, hv]
    unfold schaeffer_f7_12_1_int_cat_opt
    fin_cases i <;> norm_num [intLit_ofNat, intLit_neg, intLit_one]
  · have h12 : schaeffer_f7_12_1_int_cat_opt 12 = ((1 : ℤ) : ℝ) := by
      rw [Int.cast_one]; rfl
    obtain ⟨g, hg, -⟩ := trigChoice_spec (k := 1) (by norm_num) (by norm_num)
    refine ⟨-10, ?_, by norm_num [hq]⟩
    rw [he, ho, h12, hg, Option.map_some, schaeffer_self]
    norm_num
  · intro x hx
    obtain ⟨k, hk, k0, k1⟩ := intCoord hx 12 0 3 (by rw [hv]; rfl) (by rw [hv]; rfl) (by rw [hv]; exact fun h => by cases h)
    obtain ⟨g, hg, -⟩ := trigChoice_spec k0 k1
    refine ⟨_, by rw [he, hk, hg]; rfl, ?_⟩
    have := schaeffer_nonneg 2 g (fun i => schaeffer_f7_12_1_int_cat_opt i.castSucc) (fun i => x i.castSucc)
    rw [hq]
    linarith

theorem C88_schaeffer_f7_12_2_int_cat : schaeffer_f7_12_2_int_cat.OptimumIs 0 := by
  have ho : schaeffer_f7_12_2_int_cat.optPoint = schaeffer_f7_12_2_int_cat_opt := rfl
  have hv : schaeffer_f7_12_2_int_cat.vars = ![⟨-50, 50, .R⟩, ⟨-50, 50, .R⟩, ⟨-50, 50, .R⟩, ⟨-50, 50, .R⟩,
    ⟨-50, 50, .R⟩, ⟨-50, 50, .R⟩, ⟨-50, 50, .R⟩, ⟨-50, 50, .R⟩, ⟨-50, 50, .R⟩, ⟨-50, 50, .I⟩,
    ⟨-50, 50, .I⟩, ⟨-50, 50, .I⟩, ⟨0, 3, .C⟩] := rfl
  have hq : schaeffer_f7_12_2_int_cat.optVal = -10 := rfl
  have he : ∀ x, schaeffer_f7_12_2_int_cat.eval x = (trigChoice (x 12)).map (fun g =>
    schaeffer 2 g (fun i => schaeffer_f7_12_2_int_cat_opt i.castSucc) (fun i => x i.castSucc) - 10) :=
    fun _ => rfl
  refine optimumIs_of_feasible ?_ ?_ rfl ?_
  · intro i
    rw [ho, hv]
    unfold schaeffer_f7_12_2_int_cat_opt
    fin_cases i <;> norm_num [intLit_ofNat, intLit_neg, intLit_one]
  · have h12 : schaeffer_f7_12_2_int_cat_opt 12 = ((1 : ℤ) : ℝ) := by
      rw [Int.cast_one]; rfl
    obtain ⟨g, hg, -⟩ := trigChoice_spec (k := 1) (by norm_num) (by norm_num)
    refine ⟨-10, ?_, by norm_num [hq]⟩
    rw [he, ho, h12, hg, Option.map_some, schaeffer_self]
    norm_num
  · intro x hx
    obtain ⟨k, hk, k0, k1⟩ := intCoord hx 12 0 3 (by rw [hv]; rfl) (by rw [hv]; rfl) (by rw [hv]; exact fun h => by cases h)
    obtain ⟨g, hg, -⟩ := trigChoice_spec k0 k1
    refine ⟨_, by rw [he, hk, hg]; rfl, ?_⟩
    have := schaeffer_nonneg 2 g (fun i => schaeffer_f7_12_2_int_cat_opt i.castSucc) (fun i => x i.castSucc)
    rw [hq]
    linarith

end TestFns
end Rbfopt
