import Verif.Props.TestFunctionsMore

/-!
# C88: totality and feasibility for the remaining functions

Every feasible point has a value and the declared point is feasible.  For hartman6, hartman3_cat and
hartman6_cat this is all that is proved (that the declared value is the minimum is not); the optima of the
other three are in `TestFunctionsEx8` and `TestFunctionsLeast`.
-/

namespace Rbfopt
namespace TestFns
open Real

theorem C88_rest_hartman6 : hartman6.Total ∧ hartman6.Feasible hartman6.optPoint := by
  refine ⟨fun x _ => ⟨_, rfl⟩, ?_⟩
  intro i; fin_cases i <;> norm_num [hartman6]

theorem C88_rest_least : least.Total ∧ least.Feasible least.optPoint := by
  refine ⟨fun x _ => ⟨_, rfl⟩, ?_⟩
  intro i; fin_cases i <;> norm_num [least]

theorem C88_rest_ex8_1_1 : ex8_1_1.Total ∧ ex8_1_1.Feasible ex8_1_1.optPoint := by
  refine ⟨fun x _ => ⟨_, rfl⟩, ?_⟩
  intro i; fin_cases i <;> norm_num [ex8_1_1]

theorem C88_rest_hartman3_cat : hartman3_cat.Total ∧ hartman3_cat.Feasible hartman3_cat.optPoint := by
  have hv : hartman3_cat.vars = ![⟨0, 1, .R⟩, ⟨0, 1, .R⟩, ⟨0, 1, .R⟩, ⟨0, 4, .C⟩] := rfl
  refine ⟨fun x hx => ?_, ?_⟩
  · obtain ⟨k, hk, h⟩ := intCoord hx 3 0 4 (by simp [hv]) (by simp [hv]) (by simp [hv])
    have : ⌊x 3⌋.toNat < 5 := by rw [hk, Int.floor_intCast]; omega
    exact ⟨_, dif_pos this⟩
  · intro i
    rw [hv]
    fin_cases i <;> norm_num [hartman3_cat, intLit_ofNat]

theorem C88_rest_hartman6_cat : hartman6_cat.Total ∧ hartman6_cat.Feasible hartman6_cat.optPoint := by
  have hv : hartman6_cat.vars = ![⟨0, 4, .C⟩, ⟨0, 1, .R⟩, ⟨0, 1, .R⟩, ⟨0, 1, .R⟩, ⟨0, 1, .R⟩, ⟨0, 1, .R⟩,
    ⟨0, 1, .R⟩] := rfl
  refine ⟨fun x hx => ?_, ?_⟩
  · obtain ⟨k, hk, h⟩ := intCoord hx 0 0 4 (by simp [hv]) (by simp [hv]) (by simp [hv])
    have : ⌊x 0⌋.toNat < 5 := by rw [hk, Int.floor_intCast]; omega
    exact ⟨_, dif_pos this⟩
  · intro i
    rw [hv]
    fin_cases i <;> norm_num [hartman6_cat, intLit_ofNat]

theorem C88_rest_ex8_1_1_cat : ex8_1_1_cat.Total ∧ ex8_1_1_cat.Feasible ex8_1_1_cat.optPoint := by
  have hv : ex8_1_1_cat.vars = ![⟨-1, 2, .R⟩, ⟨-1, 1, .R⟩, ⟨0, 3, .C⟩, ⟨0, 3, .C⟩] := rfl
  refine ⟨fun x hx => ?_, ?_⟩
  · obtain ⟨k, hk, h⟩ := intCoord hx 2 0 3 (by simp [hv]) (by simp [hv]) (by simp [hv])
    obtain ⟨l, hl, h'⟩ := intCoord hx 3 0 3 (by simp [hv]) (by simp [hv]) (by simp [hv])
    have c1 : k = 0 ∨ k = 1 ∨ k = 2 ∨ k = 3 := by omega
    have c2 : l = 0 ∨ l = 1 ∨ l = 2 ∨ l = 3 := by omega
    have e1 : ∃ g : ℝ → ℝ, (if x 2 = 0 then some sin else if x 2 = 1 then some cos
        else if x 2 = 2 then some (fun t => cos (t + π / 4) ^ 2)
        else if x 2 = 3 then some (fun t => sin (t + π / 4) ^ 2) else none) = some g := by
      rw [hk]
      rcases c1 with rfl | rfl | rfl | rfl
      · exact ⟨_, if_pos (by norm_num)⟩
      · exact ⟨_, by rw [if_neg (by norm_num), if_pos (by norm_num)]⟩
      · exact ⟨_, by rw [if_neg (by norm_num), if_neg (by norm_num), if_pos (by norm_num)]⟩
      · exact ⟨_, by rw [if_neg (by norm_num), if_neg (by norm_num), if_neg (by norm_num),
          if_pos (by norm_num)]⟩
    have e2 : ∃ g : ℝ → ℝ, (if x 3 = 0 then some (fun t => sin (t + π / 4) ^ 2) else if x 3 = 1 then some sin
        else if x 3 = 2 then some (fun t => cos (t + π / 4) ^ 2)
        else if x 3 = 3 then some cos else none) = some g := by
      rw [hl]
      rcases c2 with rfl | rfl | rfl | rfl
      · exact ⟨_, if_pos (by norm_num)⟩
      · exact ⟨_, by rw [if_neg (by norm_num), if_pos (by norm_num)]⟩
      · exact ⟨_, by rw [if_neg (by norm_num), if_neg (by norm_num), if_pos (by norm_num)]⟩
      · exact ⟨_, by rw [if_neg (by norm_num), if_neg (by norm_num), if_neg (by norm_num),
          if_pos (by norm_num)]⟩
    obtain ⟨g1, q1⟩ := e1
    obtain ⟨g2, q2⟩ := e2
    unfold ex8_1_1_cat
    dsimp only
    rw [q1, q2]
    exact ⟨_, rfl⟩
  · intro i
    rw [hv]
    fin_cases i <;> norm_num [ex8_1_1_cat, intLit_ofNat, intLit_one]

end TestFns
end Rbfopt
